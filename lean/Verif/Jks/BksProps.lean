import Verif.Jks.BksLemmas
/-
C127: BKS key stores.  C128: UBER key stores.
-/
namespace Verif.Jks
open Verif.Cipher Verif.Pub Verif.Kdf Verif.Mode Verif.Facade Verif.Padding Spec

/-! ### Reading -/

/-- A file is read exactly if it consists of version, salt, count, well-formed entries with different names, the MAC of the entries, and anything after that. -/
theorem C127_parse_iff (S : Sha1) (U : Bytes → Bytes) (data password : Bytes) (s : BStore) :
    bLoad S U data password = .ok s ↔ ∃ (version : Nat) (salt : Bytes) (count : Nat) (es : List BSpec.Entry) (rest : Bytes),
      (version = 1 ∨ version = 2) ∧ salt.length < 2 ^ 31 ∧ count < 2 ^ 32 ∧ (∀ e ∈ es, e.Valid) ∧ (es.map BSpec.Entry.al).Nodup ∧
      data = BSpec.file S version salt count es (BSpec.macKey S U password salt (BSpec.rounds count) (BSpec.macLen version)) ++ rest ∧ s = BSpec.store es := by
  rw [bLoad]
  have aux : ∀ (x : Res (BStore × Bytes)), (x.bind fun p => .ok p.1) = .ok s ↔ ∃ t, x = .ok (s, t) := by
    intro x
    cases x with
    | ok p => obtain ⟨a, b⟩ := p; simp [Res.bind]
    | err => simp [Res.bind]
    | panic => simp [Res.bind]
    | hang => simp [Res.bind]
  rw [aux]
  simp only [Rd.bind_ok, rdNat_ok, ite_fail, readBytes_ok', readInt32]
  constructor
  · rintro ⟨t, version, u1, ⟨h1, h2⟩, hv, salt, u2, ⟨h3, h4⟩, count, r, ⟨h5, h6⟩, h7⟩
    rw [derivedHmacKey_eq, hmacKeyLen_eq hv, Res.bind] at h7
    cases hb : bLoadEntries (r.length + 1) newBKS r with
    | ok p =>
      obtain ⟨s1, t1⟩ := p
      rw [hb] at h7
      simp only [Res.bind] at h7
      obtain ⟨es, g1, g2, g3, g4⟩ := (bLoadEntries_new ..).1 hb
      cases hf : rdFull 20 t1 with
      | ok q =>
        obtain ⟨m, rest⟩ := q
        rw [hf] at h7
        simp only at h7
        obtain ⟨g5, g6⟩ := (rdFull_ok ..).1 hf
        split at h7
        · rename_i hk
          rw [Res.ok.injEq, Prod.mk.injEq] at h7
          refine ⟨version, salt, count, es, rest, hv, h3, h5, g1, g2, ?_, by rw [← h7.1, g3]⟩
          have : r.take (r.length - t1.length) = BSpec.body es := by
            rw [g4, List.length_append, Nat.add_sub_cancel, List.take_left]
          rw [this] at hk
          rw [BSpec.file, BSpec.rounds, hk, h2, h4, h6, g4, g6]
          simp only [List.append_assoc]
        · cases h7
      | err => rw [hf] at h7; cases h7
      | panic => rw [hf] at h7; cases h7
      | hang => rw [hf] at h7; cases h7
    | err => rw [hb] at h7; cases h7
    | panic => rw [hb] at h7; cases h7
    | hang => rw [hb] at h7; cases h7
  · rintro ⟨version, salt, count, es, rest, hv, h1, h2, h3, h4, h5, rfl⟩
    rw [BSpec.file] at h5
    simp only [List.append_assoc] at h5
    refine ⟨rest, version, _, ⟨by rcases hv with rfl | rfl <;> decide, h5⟩, hv, salt, _, ⟨h1, rfl⟩, count, _, ⟨h2, rfl⟩, ?_⟩
    rw [derivedHmacKey_eq, hmacKeyLen_eq hv, Res.bind, (bLoadEntries_new _ _ (BSpec.store es)).2 ⟨es, h3, h4, rfl, rfl⟩]
    simp only [Res.bind]
    rw [(rdFull_ok 20 _ _ rest).2 ⟨by rw [hmac_length, S.size], rfl⟩]
    simp only
    rw [List.length_append (as := BSpec.body es), Nat.add_sub_cancel, List.take_left, BSpec.rounds, if_pos rfl]

/-- The MAC of version 1, the default, has a key of two bytes. Whoever does not know the password can make a file with entries of their choice that loads with it: one
of 65536 candidates is accepted, for every password. -/
theorem C127_forgery_violated (S : Sha1) (U : Bytes → Bytes) (salt : Bytes) (count : Nat) (es : List BSpec.Entry) (h1 : salt.length < 2 ^ 31) (h2 : count < 2 ^ 32)
    (h3 : ∀ e ∈ es, e.Valid) (h4 : (es.map BSpec.Entry.al).Nodup) (password : Bytes) :
    ∃ a b : Byte, bLoad S U (BSpec.file S 1 salt count es [a, b]) password = .ok (BSpec.store es) := by
  obtain ⟨k, hk, hl⟩ := p12key_ok S salt (bksFormatPassword U password) (signed32 count) 3 2
  have e := derivedHmacKey_eq S U password salt (signed32 count) 2
  rw [derivedHmacKey, hk, Res.ok.injEq] at e
  match k, hl with
  | [a, b], _ =>
    refine ⟨a, b, (C127_parse_iff ..).2 ⟨1, salt, count, es, [], .inl rfl, h1, h2, h3, h4, ?_, rfl⟩⟩
    rw [List.append_nil, BSpec.rounds, BSpec.macLen, if_pos rfl, ← e]

/-- A salt length with the top bit set makes the program panic, for every password. -/
theorem C127_panic_violated (S : Sha1) (U : Bytes → Bytes) (password rest : Bytes) (n : Nat) (h1 : 2 ^ 31 ≤ n) (h2 : n < 2 ^ 32) :
    bLoad S U (hx 4 1 ++ (hx 4 n ++ rest)) password = .panic := by
  rw [bLoad, Rd.bind_of_ok ((rdNat_ok 4 _ _ 1).2 ⟨by decide, rfl⟩), if_neg (by simp), Rd.bind, readBytes_panic n h1 h2]
  rfl

/-! ### Writing -/

/-- The value of a call that succeeds. -/
def okOr : Res Bytes → Bytes
  | .ok e => e
  | _ => []

/-- A sealed key. -/
def sealedBytes (S : Sha1) (U : Bytes → Bytes) (C : Bc 8) (salt : Bytes) (k : BKey) (pw : Bytes) : Bytes :=
  okOr (encryptSealed S U C salt (some k) pw)

theorem sealedBytes_eq {S : Sha1} {U : Bytes → Bytes} {C : Bc 8} {salt : Bytes} {k : BKey} {pw e : Bytes} (h : encryptSealed S U C salt (some k) pw = .ok e) : sealedBytes S U C salt k pw = e := by
  have := congrArg okOr h
  exact this

/-- A key fits the fields of the format. -/
structure BKey.Fits (k : BKey) (n : Nat) : Prop where
  keyType : k.keyType < 2 ^ 8
  format : k.format.length < 2 ^ 16
  algorithm : k.algorithm.length < 2 ^ 16
  encoded : k.encoded.length < n

theorem marshalKey_eq (k : BKey) : marshalKey k = BSpec.keyEnc k.keyType k.format k.algorithm k.encoded := rfl

theorem sealed_spec (S : Sha1) (U : Bytes → Bytes) (C : Bc 8) (salt : Bytes) (hs : salt.length = 8) (k : BKey) (hk : k.Fits (2 ^ 30)) (pw : Bytes) :
    encryptSealed S U C salt (some k) pw = .ok (sealedBytes S U C salt k pw) ∧ (sealedBytes S U C salt k pw).length < 2 ^ 31 ∧
    ∀ pw', decryptSealed S U C pw (sealedBytes S U C salt k pw) none pw' = (.ok (), .sealedKey [] (some k) pw') := by
  obtain ⟨ct, h1, h2, h3, h4⟩ := p12_roundtrip S U 8 (by decide) (by decide) C 24 pw salt 2048 (marshalKey k)
  have e : encryptSealed S U C salt (some k) pw = .ok (str32 salt ++ hx 4 2048 ++ ct) := by rw [encryptSealed, h1]; rfl
  have e2 : sealedBytes S U C salt k pw = str32 salt ++ hx 4 2048 ++ ct := sealedBytes_eq e
  rw [e2]
  have hml : (marshalKey k).length < 2 ^ 30 + 2 ^ 18 := by
    have := hk.format; have := hk.algorithm; have := hk.encoded
    rw [marshalKey_eq, BSpec.keyEnc]
    simp only [str16, str32, List.length_append, hx_length]
    omega
  have hlen : (str32 salt ++ hx 4 2048 ++ ct).length = 16 + ct.length := by
    simp only [str32, List.length_append, hx_length, hs]
  refine ⟨e, by omega, ?_⟩
  intro pw'
  rw [decryptSealed, if_neg (by omega)]
  have hr : (readBytes.bind fun salt' => readInt32.bind fun iter => (rdFull ((str32 salt ++ hx 4 2048 ++ ct).length - (salt'.length + 8))).bind fun blob => Rd.ret (salt', iter, blob)) (str32 salt ++ hx 4 2048 ++ ct) = .ok ((salt, 2048, ct), []) := by
    simp only [Rd.bind_ok, readBytes_ok', readInt32, rdNat_ok, rdFull_ok, Rd.ret_ok]
    refine ⟨salt, _, ⟨by omega, by rw [List.append_assoc]⟩, 2048, ct, ⟨by decide, rfl⟩, ct, [], ⟨by rw [hlen, hs]; omega, by simp⟩, rfl, rfl⟩
  rw [hr]
  simp only
  rw [show signed32 2048 = 2048 from rfl, h2]
  simp only
  have hrk : readKey (marshalKey k) = .ok (k, []) :=
    (readKey_ok ..).2 ⟨hk.keyType, hk.format, hk.algorithm, by have := hk.encoded; omega, by rw [marshalKey_eq, List.append_nil]⟩
  rw [hrk]

/-- An entry fits the fields of the format; a sealed key is open. -/
structure BItem.Fits (x : BItem) : Prop where
  al : x.al.length < 2 ^ 16
  date : -(2 ^ 63) ≤ x.date ∧ x.date < 2 ^ 63
  count : x.chain.length < 2 ^ 31
  chain : ∀ c ∈ x.chain, c.length < 2 ^ 31
  ent : match x.ent with
    | .cert t c => t.length < 2 ^ 16 ∧ c.length < 2 ^ 31
    | .key k => k.Fits (2 ^ 31)
    | .secret s => s.length < 2 ^ 31
    | .sealedKey _ nested _ => ∃ k, nested = some k ∧ k.Fits (2 ^ 30)

/-- what is written for an entry -/
def BEnt.data (S : Sha1) (U : Bytes → Bytes) (C : Bc 8) (salt : Bytes) : BEnt → BSpec.Data
  | .cert t c => .cert t c
  | .key k => .key k.keyType k.format k.algorithm k.encoded
  | .secret s => .secret s
  | .sealedKey _ nested pw => .sealedKey (sealedBytes S U C salt (nested.getD ⟨0, [], [], []⟩) pw)

def BItem.entry (S : Sha1) (U : Bytes → Bytes) (C : Bc 8) (x : BItem) (salt : Bytes) : BSpec.Entry :=
  ⟨x.al, stamp x.date, x.chain.map fun c => (sX509, c), x.chain.length, x.ent.data S U C salt⟩

theorem entryData_eq (S : Sha1) (U : Bytes → Bytes) (C : Bc 8) (x : BItem) (salt : Bytes) :
    (x.entry S U C salt).enc = marshalEntryData (x.ent.data S U C salt).tag x ++ (x.ent.data S U C salt).enc := by
  rw [BSpec.Entry.enc, BItem.entry, marshalEntryData]
  simp only [List.map_map]
  rfl

theorem bWrite_ok (S : Sha1) (U : Bytes → Bytes) (C : Bc 8) (x : BItem) (hx1 : x.Fits) (salt : Bytes) (hs : salt.length = 8) :
    bWrite S U C x salt = .ok (x.entry S U C salt).enc ∧ (x.entry S U C salt).Valid := by
  have he := hx1.ent
  rw [entryData_eq, bWrite]
  have val : (x.ent.data S U C salt).Valid → (x.entry S U C salt).Valid := by
    intro hd
    refine ⟨hx1.al, stamp_lt _, by have := hx1.count; exact Nat.lt_trans this (by decide), ?_, ?_, hd⟩
    · rw [BItem.entry]; simp only
      rw [signed32, if_pos hx1.count, List.length_map, Int.toNat_natCast]
    · intro c hc
      obtain ⟨y, hy, rfl⟩ := List.mem_map.1 hc
      exact ⟨by show sX509.length < _; decide, hx1.chain y hy⟩
  cases hent : x.ent with
  | cert t c => rw [hent] at he val; exact ⟨rfl, val he⟩
  | key k => rw [hent] at he val; exact ⟨rfl, val ⟨he.keyType, he.format, he.algorithm, he.encoded⟩⟩
  | secret y => rw [hent] at he val; exact ⟨rfl, val he⟩
  | sealedKey enc nested pw =>
    rw [hent] at he val
    obtain ⟨k, rfl, hk⟩ := he
    obtain ⟨h1, h2, -⟩ := sealed_spec S U C salt hs k hk pw
    refine ⟨?_, val h2⟩
    simp only
    rw [h1]
    rfl

theorem bWriteAll_ok (S : Sha1) (U : Bytes → Bytes) (C : Bc 8) : ∀ (l : List (BItem × Bytes)), (∀ x ∈ l, x.1.Fits ∧ x.2.length = 8) →
    bWriteAll S U C l = .ok (BSpec.body (l.map fun x => x.1.entry S U C x.2))
  | [], _ => rfl
  | (x, salt) :: l, h => by
    rw [bWriteAll, (bWrite_ok S U C x (h (x, salt) (by simp)).1 salt (h (x, salt) (by simp)).2).1, Res.bind, bWriteAll_ok S U C l fun y hy => h y (by simp [hy])]
    simp only [Res.bind, BSpec.body, List.map_cons, List.flatten_cons, List.append_assoc]

theorem signed32_mod (i : Int) (h1 : -(2 ^ 31) ≤ i) (h2 : i < 2 ^ 31) : (i % 2 ^ 32).toNat < 2 ^ 32 ∧ signed32 (i % 2 ^ 32).toNat = i := by
  rw [signed32]
  split <;> omega

/-- the entry that is found when the file is read -/
def BItem.saved (S : Sha1) (U : Bytes → Bytes) (C : Bc 8) (x : BItem) (salt : Bytes) : BItem := (x.entry S U C salt).toItem

theorem save_load (S : Sha1) (U : Bytes → Bytes) (C : Bc 8) (order : List (BItem × Bytes)) (s0 : BStore) (ho : BSpec.Lists (order.map Prod.fst) s0) (ha : ∀ a x, s0 a = some x → x.al = a)
    (hf : ∀ x ∈ order, x.1.Fits ∧ x.2.length = 8) :
    (∀ e ∈ order.map fun x => x.1.entry S U C x.2, e.Valid) ∧ ((order.map fun x => x.1.entry S U C x.2).map BSpec.Entry.al).Nodup ∧
    ∀ a, (s0 a = none ∧ BSpec.store (order.map fun x => x.1.entry S U C x.2) a = none) ∨
      ∃ x salt, s0 a = some x ∧ x.Fits ∧ salt.length = 8 ∧ BSpec.store (order.map fun x => x.1.entry S U C x.2) a = some (x.saved S U C salt) := by
  refine ⟨?_, ?_, ?_⟩
  · intro e he
    obtain ⟨x, hx1, rfl⟩ := List.mem_map.1 he
    exact (bWrite_ok S U C x.1 (hf x hx1).1 x.2 (hf x hx1).2).2
  · have := ho.1
    rw [List.map_map] at this ⊢
    exact this
  · intro a
    cases hfd : (order.map fun x => x.1.entry S U C x.2).find? (fun e => e.al == a) with
    | none =>
      left
      refine ⟨?_, by rw [BSpec.store, hfd]; rfl⟩
      cases hsa : s0 a with
      | none => rfl
      | some x =>
        have hxa := ha a x hsa
        subst hxa
        obtain ⟨y, hy, hyx⟩ := List.mem_map.1 ((ho.2 x).2 hsa)
        rw [List.find?_eq_none] at hfd
        exact absurd (by show ((y.1.entry S U C y.2).al == x.al) = true; simp [BItem.entry, hyx]) (hfd _ (List.mem_map.2 ⟨y, hy, rfl⟩))
    | some e =>
      right
      have h1 := List.find?_some hfd
      simp only [beq_iff_eq] at h1
      obtain ⟨x, hx1, rfl⟩ := List.mem_map.1 (List.mem_of_find?_eq_some hfd)
      have h2 := (ho.2 x.1).1 (List.mem_map_of_mem hx1)
      have h3 : x.1.al = a := h1
      rw [h3] at h2
      exact ⟨x.1, x.2, h2, (hf x hx1).1, (hf x hx1).2, by rw [BSpec.store, hfd]; rfl⟩

/-! ### Histories -/

/-- One call. -/
def bStep (s : BStore) (op : BSpec.Op) : BStore :=
  match op.new with
  | .cert c => bAddCert s op.al c op.chain op.now
  | .key kind alg k => bAddKey s kind op.al k alg op.chain op.now
  | .sealedKey kind alg k pw => bAddSealed s kind op.al k alg pw op.chain op.now
  | .secret x => bAddSecret s op.al x op.chain op.now

/-- The store after calls on a new store, most recent first. -/
def bRun : List BSpec.Op → BStore
  | [] => newBKS
  | op :: ops => bStep (bRun ops) op

/-- What a call adds fits the fields of the format. -/
structure BSpec.Op.Fits (op : BSpec.Op) : Prop where
  al : op.al.length < 2 ^ 16
  date : -(2 ^ 63) ≤ op.now ∧ op.now < 2 ^ 63
  count : op.chain.length < 2 ^ 31
  chain : ∀ c ∈ op.chain, c.length < 2 ^ 31
  new : match op.new with
    | .cert c => c.length < 2 ^ 31
    | .key _ alg k => alg.length < 2 ^ 16 ∧ k.length < 2 ^ 31
    | .sealedKey _ alg k _ => alg.length < 2 ^ 16 ∧ k.length < 2 ^ 30
    | .secret x => x.length < 2 ^ 31

/-- What the getters return for a name whose last call added `new`. -/
def BShowsNew (S : Sha1) (U : Bytes → Bytes) (C : Bc 8) (s : BStore) (al : Bytes) : BSpec.New → Prop
  | .cert c => bGetCert s al = .ok (some c) ∧ bGetKey s al = .ok none ∧ bGetSecret s al = .ok none ∧ ∀ pw, (bGetSealed S U C s al pw).1 = .ok none
  | .key kind _ k => bGetKey s al = .ok (some (kind.val, k)) ∧ bGetCert s al = .ok none ∧ bGetSecret s al = .ok none ∧ ∀ pw, (bGetSealed S U C s al pw).1 = .ok none
  | .sealedKey kind _ k pw => (bGetSealed S U C s al pw).1 = .ok (some (kind.val, k)) ∧ bGetCert s al = .ok none ∧ bGetSecret s al = .ok none ∧ bGetKey s al = .ok none
  | .secret x => bGetSecret s al = .ok (some x) ∧ bGetCert s al = .ok none ∧ bGetKey s al = .ok none ∧ ∀ pw, (bGetSealed S U C s al pw).1 = .ok none

/-- What the getters return for a name whose last call was `op`; dates are kept up to `date`. -/
def BShows (S : Sha1) (U : Bytes → Bytes) (C : Bc 8) (date : Int → Int) (s : BStore) (al : Bytes) : Option BSpec.Op → Prop
  | none => bGetCert s al = .err ∧ bGetKey s al = .err ∧ bGetSecret s al = .err ∧ (∀ pw, (bGetSealed S U C s al pw).1 = .err) ∧ bGetChain s al = .err ∧ bGetDate s al = .err
  | some op => bGetChain s al = .ok op.chain ∧ bGetDate s al = .ok (date op.now) ∧ BShowsNew S U C s al op.new

/-- the entry of a call -/
def BSpec.New.ent : BSpec.New → BEnt
  | .cert c => .cert sX509 c
  | .key kind alg k => .key (kindKey kind alg k)
  | .sealedKey kind alg k pw => .sealedKey [] (some (kindKey kind alg k)) pw
  | .secret x => .secret x

def BSpec.Op.item (op : BSpec.Op) : BItem := ⟨op.al, op.now, op.chain, op.new.ent⟩

theorem bStep_eq (s : BStore) (op : BSpec.Op) : bStep s op = set s op.al op.item := by
  rw [bStep, BSpec.Op.item]
  cases op.new <;> rfl

theorem bRun_eq : ∀ (ops : List BSpec.Op) (a : Bytes), bRun ops a = (BSpec.last ops a).map BSpec.Op.item
  | [], _ => rfl
  | op :: ops, a => by
    rw [bRun, bStep_eq, BSpec.last, List.find?_cons]
    by_cases h : op.al = a
    · subst h; simp [set]
    · have : (op.al == a) = false := by simp [h]
      rw [this, set_other _ _ _ _ (Ne.symm h), bRun_eq ops a]
      rfl

theorem last_al {ops : List BSpec.Op} {a : Bytes} {op : BSpec.Op} (h : BSpec.last ops a = some op) : op.al = a ∧ op ∈ ops := by
  have := List.find?_some h
  simp only [beq_iff_eq] at this
  exact ⟨this, List.mem_of_find?_eq_some h⟩

theorem recover_kind (kind : Fin 3) (alg k : Bytes) : recover (kindKey kind alg k) = .ok (kind.val, k) := by
  match kind with
  | 0 => rfl
  | 1 => rfl
  | 2 => rfl

theorem kindKey_fits (kind : Fin 3) (alg k : Bytes) (n : Nat) (h1 : alg.length < 2 ^ 16) (h2 : k.length < n) : (kindKey kind alg k).Fits n := by
  match kind with
  | 0 => exact ⟨by simp [kindKey], by simp [kindKey, sPKCS8], h1, h2⟩
  | 1 => exact ⟨by simp [kindKey], by simp [kindKey, sX509], h1, h2⟩
  | 2 => exact ⟨by simp [kindKey], by simp [kindKey, sRAW], h1, h2⟩

theorem op_item_fits {op : BSpec.Op} (h : op.Fits) : op.item.Fits := by
  refine ⟨h.al, h.date, h.count, h.chain, ?_⟩
  have := h.new
  rw [BSpec.Op.item]
  cases hn : op.new with
  | cert c => rw [hn] at this; exact ⟨by decide, this⟩
  | key kind alg k => rw [hn] at this; exact kindKey_fits _ _ _ _ this.1 this.2
  | sealedKey kind alg k pw => rw [hn] at this; exact ⟨_, rfl, kindKey_fits _ _ _ _ this.1 this.2⟩
  | secret x => rw [hn] at this; exact this

/-- The getters of a store return, under every name, what the last call for that name added, with its chain and date. -/
theorem C127_history (S : Sha1) (U : Bytes → Bytes) (C : Bc 8) (ops : List BSpec.Op) (al : Bytes) : BShows S U C id (bRun ops) al (BSpec.last ops al) := by
  have h := bRun_eq ops al
  cases hl : BSpec.last ops al with
  | none =>
    rw [hl, Option.map_none] at h
    simp [BShows, bGetCert, bGetKey, bGetSecret, bGetSealed, bGetChain, bGetDate, h]
  | some op =>
    rw [hl, Option.map_some, BSpec.Op.item] at h
    refine ⟨by rw [bGetChain, h], by rw [bGetDate, h]; rfl, ?_⟩
    cases hn : op.new with
    | cert c => rw [hn, BSpec.New.ent] at h; simp [BShowsNew, bGetCert, bGetKey, bGetSecret, bGetSealed, h]
    | key kind alg k => rw [hn, BSpec.New.ent] at h; simp [BShowsNew, bGetCert, bGetKey, bGetSecret, bGetSealed, h, recover_kind, Res.bind]
    | sealedKey kind alg k pw =>
      rw [hn, BSpec.New.ent] at h
      simp [BShowsNew, bGetCert, bGetKey, bGetSecret, bGetSealed, h, decryptSealed, recover_kind, Res.bind]
    | secret x => rw [hn, BSpec.New.ent] at h; simp [BShowsNew, bGetCert, bGetKey, bGetSecret, bGetSealed, h]

/-- The store read back from a saved one shows the same, with dates to the millisecond. -/
theorem saved_shows (S : Sha1) (U : Bytes → Bytes) (C : Bc 8) (ops : List BSpec.Op) (hok : ∀ op ∈ ops, op.Fits) (order : List (BItem × Bytes))
    (ho : BSpec.Lists (order.map Prod.fst) (bRun ops)) (hs : ∀ x ∈ order, x.2.length = 8) :
    (∀ x ∈ order, x.1.Fits ∧ x.2.length = 8) ∧ (∀ e ∈ order.map fun x => x.1.entry S U C x.2, e.Valid) ∧ ((order.map fun x => x.1.entry S U C x.2).map BSpec.Entry.al).Nodup ∧
    ∀ al, BShows S U C toMs (BSpec.store (order.map fun x => x.1.entry S U C x.2)) al (BSpec.last ops al) := by
  have hfit : ∀ a x, bRun ops a = some x → x.al = a ∧ x.Fits := by
    intro a x h
    rw [bRun_eq] at h
    cases hl : BSpec.last ops a with
    | none => rw [hl] at h; cases h
    | some op =>
      rw [hl, Option.map_some, Option.some.injEq] at h
      subst h
      exact ⟨(last_al hl).1, op_item_fits (hok op (last_al hl).2)⟩
  have hf : ∀ x ∈ order, x.1.Fits ∧ x.2.length = 8 := fun x hx1 =>
    ⟨(hfit _ _ ((ho.2 x.1).1 (List.mem_map_of_mem hx1))).2, hs x hx1⟩
  obtain ⟨h1, h2, h3⟩ := save_load S U C order (bRun ops) ho (fun a x h => (hfit a x h).1) hf
  refine ⟨hf, h1, h2, ?_⟩
  intro al
  generalize BSpec.store (order.map fun x => x.1.entry S U C x.2) = s at h3
  rcases h3 al with ⟨g1, g2⟩ | ⟨x, salt, g1, g2, g3, g4⟩
  · have hl : BSpec.last ops al = none := by
      rw [bRun_eq] at g1
      cases hl : BSpec.last ops al with
      | none => rfl
      | some op => rw [hl] at g1; cases g1
    rw [hl]
    simp [BShows, bGetCert, bGetKey, bGetSecret, bGetSealed, bGetChain, bGetDate, g2]
  · rw [bRun_eq] at g1
    cases hl : BSpec.last ops al with
    | none => rw [hl] at g1; cases g1
    | some op =>
      rw [hl, Option.map_some, Option.some.injEq] at g1
      subst g1
      have hd := stamp_signed op.now g2.date.1 g2.date.2
      rw [BItem.saved, BSpec.Entry.toItem, BItem.entry] at g4
      simp only [BSpec.Op.item, hd, List.map_map] at g4
      have hid : (Prod.snd ∘ fun c : Bytes => (sX509, c)) = id := rfl
      rw [hid, List.map_id] at g4
      refine ⟨by rw [bGetChain, g4], by rw [bGetDate, g4]; rfl, ?_⟩
      cases hn : op.new with
      | cert c =>
        rw [hn] at g4
        simp [BShowsNew, bGetCert, bGetKey, bGetSecret, bGetSealed, g4, BSpec.New.ent, BEnt.data, BSpec.Data.toEnt]
      | key kind alg k =>
        rw [hn] at g4
        simp [BShowsNew, bGetCert, bGetKey, bGetSecret, bGetSealed, g4, BSpec.New.ent, BEnt.data, BSpec.Data.toEnt, show recover ⟨(kindKey kind alg k).keyType, (kindKey kind alg k).format, (kindKey kind alg k).algorithm, (kindKey kind alg k).encoded⟩ = _ from recover_kind kind alg k, Res.bind]
      | sealedKey kind alg k pw =>
        have hnew := (hok op (last_al hl).2).new
        rw [hn] at g4 hnew
        obtain ⟨-, -, hdec⟩ := sealed_spec S U C salt g3 (kindKey kind alg k) (kindKey_fits kind alg k _ hnew.1 hnew.2) pw
        simp only [BSpec.New.ent, BEnt.data, BSpec.Data.toEnt, Option.getD_some] at g4
        simp [BShowsNew, bGetCert, bGetKey, bGetSecret, bGetSealed, g4, hdec, recover_kind, Res.bind]
      | secret x =>
        rw [hn] at g4
        simp [BShowsNew, bGetCert, bGetKey, bGetSecret, bGetSealed, g4, BSpec.New.ent, BEnt.data, BSpec.Data.toEnt]

/-- Saving a store built by any calls succeeds in whatever order the map is visited and whatever salts are drawn, and the loaded store returns under every name what the last call put there, sealed
keys with their own password. -/
theorem C127_saved (S : Sha1) (U : Bytes → Bytes) (C : Bc 8) (ops : List BSpec.Op) (hok : ∀ op ∈ ops, op.Fits) (order : List (BItem × Bytes))
    (ho : BSpec.Lists (order.map Prod.fst) (bRun ops)) (hs : ∀ x ∈ order, x.2.length = 8) (password : Bytes) (version : Nat) (hv : version = 1 ∨ version = 2)
    (salt : Bytes) (hsalt : salt.length < 2 ^ 31) (iter : Int) (hi : -(2 ^ 31) ≤ iter ∧ iter < 2 ^ 31) :
    ∃ data s, bMarshal S U C order password version salt iter = .ok data ∧ bLoad S U data password = .ok s ∧ ∀ al, BShows S U C toMs s al (BSpec.last ops al) := by
  obtain ⟨h0, h1, h2, h3⟩ := saved_shows S U C ops hok order ho hs
  obtain ⟨i1, i2⟩ := signed32_mod iter hi.1 hi.2
  refine ⟨_, _, ?_, (C127_parse_iff ..).2 ⟨version, salt, (iter % 2 ^ 32).toNat, order.map fun x => x.1.entry S U C x.2, [], hv, hsalt, i1, h1, h2, rfl, rfl⟩, h3⟩
  rw [bMarshal, if_neg (not_not.2 hv), bWriteAll_ok S U C order h0, Res.bind, derivedHmacKey_eq, Res.bind, hmacKeyLen_eq hv, List.append_nil, BSpec.rounds, i2]
  rfl

/-- Another version is refused. -/
theorem C127_version (S : Sha1) (U : Bytes → Bytes) (C : Bc 8) (order : List (BItem × Bytes)) (password : Bytes) (version : Nat) (hv : version ≠ 1 ∧ version ≠ 2) (salt : Bytes) (iter : Int) :
    bMarshal S U C order password version salt iter = .err := by
  rw [bMarshal, if_pos (by tauto)]

/-! ### Saving a loaded store -/

theorem bWriteAll_panic (S : Sha1) (U : Bytes → Bytes) (C : Bc 8) : ∀ (l : List (BItem × Bytes)), (∃ x ∈ l, ∃ e pw, x.1.ent = .sealedKey e none pw) → bWriteAll S U C l = .panic
  | [], h => by obtain ⟨x, hx1, -⟩ := h; cases hx1
  | (x, salt) :: l, h => by
    rw [bWriteAll]
    by_cases hx1 : ∃ e pw, x.ent = .sealedKey e none pw
    · obtain ⟨e, pw, he⟩ := hx1
      rw [bWrite, he]
      rfl
    · have hl : ∃ x ∈ l, ∃ e pw, x.1.ent = .sealedKey e none pw := by
        obtain ⟨y, hy, hh⟩ := h
        rcases List.mem_cons.1 hy with rfl | hy
        · exact absurd hh hx1
        · exact ⟨y, hy, hh⟩
      have : ∃ b, bWrite S U C x salt = .ok b := by
        rw [bWrite]
        split
        · exact ⟨_, rfl⟩
        · exact ⟨_, rfl⟩
        · exact ⟨_, rfl⟩
        · rename_i e nested pw hent
          cases nested with
          | none => exact absurd ⟨e, pw, hent⟩ hx1
          | some k =>
            obtain ⟨ct, h1, -⟩ := p12_roundtrip S U 8 (by decide) (by decide) C 24 pw salt 2048 (marshalKey k)
            rw [encryptSealed, h1]
            exact ⟨_, rfl⟩
      obtain ⟨b, hb⟩ := this
      rw [hb, Res.bind, bWriteAll_panic S U C l hl]
      rfl

/-- Saving a loaded store that has a sealed key panics, as long as that key has not been opened. -/
theorem C127_resave_violated (S : Sha1) (U : Bytes → Bytes) (C : Bc 8) (data password : Bytes) (s : BStore) (hl : bLoad S U data password = .ok s) (order : List (BItem × Bytes))
    (ho : BSpec.Lists (order.map Prod.fst) s) (hk : ∃ a d c e n pw, s a = some ⟨a, d, c, .sealedKey e n pw⟩) (password' : Bytes) (version : Nat) (hv : version = 1 ∨ version = 2) (salt : Bytes) (iter : Int) :
    bMarshal S U C order password' version salt iter = .panic := by
  obtain ⟨_, _, _, es, _, _, _, _, _, hnd, _, rfl⟩ := (C127_parse_iff ..).1 hl
  obtain ⟨a, d, c, e, n, pw, hk⟩ := hk
  have hn : n = none := by
    rw [BSpec.store] at hk
    cases hf : es.find? (fun e => e.al == a) with
    | none => rw [hf] at hk; cases hk
    | some x =>
      rw [hf, Option.map_some, Option.some.injEq, BSpec.Entry.toItem] at hk
      injection hk with _ _ _ hk
      cases hd : x.data with
      | sealedKey y => rw [hd, BSpec.Data.toEnt] at hk; cases hk; rfl
      | cert _ _ => rw [hd] at hk; cases hk
      | key _ _ _ _ => rw [hd] at hk; cases hk
      | secret _ => rw [hd] at hk; cases hk
  subst hn
  obtain ⟨x, hx1, hx2⟩ := List.mem_map.1 ((ho.2 ⟨a, d, c, .sealedKey e none pw⟩).2 hk)
  rw [bMarshal, if_neg (not_not.2 hv), bWriteAll_panic S U C order ⟨x, hx1, e, pw, by rw [hx2]⟩]
  rfl

theorem loaded_pw {S : Sha1} {U : Bytes → Bytes} {data password : Bytes} {s : BStore} (hl : bLoad S U data password = .ok s) {al : Bytes} {x : BItem} (h : s al = some x) :
    x.al = al ∧ ∀ e n pw, x.ent = .sealedKey e n pw → pw = [] ∧ n = none := by
  obtain ⟨_, _, _, es, _, _, _, _, _, hnd, _, rfl⟩ := (C127_parse_iff ..).1 hl
  rw [BSpec.store] at h
  cases hf : es.find? (fun e => e.al == al) with
  | none => rw [hf] at h; cases h
  | some y =>
    have h1 := List.find?_some hf
    simp only [beq_iff_eq] at h1
    rw [hf, Option.map_some, Option.some.injEq] at h
    subst h
    refine ⟨h1, ?_⟩
    intro e n pw hh
    rw [BSpec.Entry.toItem] at hh
    cases hd : y.data with
    | sealedKey z => simp only [hd, BSpec.Data.toEnt] at hh; cases hh; exact ⟨rfl, rfl⟩
    | cert _ _ => simp only [hd] at hh; cases hh
    | key _ _ _ _ => simp only [hd] at hh; cases hh
    | secret _ => simp only [hd] at hh; cases hh

/-- A sealed key that has been opened is saved sealed with the empty password, whatever its password was. -/
theorem C127_reseal_violated (S : Sha1) (U : Bytes → Bytes) (C : Bc 8) (data password : Bytes) (s s' : BStore) (hl : bLoad S U data password = .ok s) (al pw : Bytes) (r : Nat × Bytes)
    (hg : bGetSealed S U C s al pw = (.ok (some r), s')) (order : List (BItem × Bytes)) (ho : BSpec.Lists (order.map Prod.fst) s') (hf : ∀ x ∈ order, x.1.Fits ∧ x.2.length = 8)
    (password' : Bytes) (version : Nat) (hv : version = 1 ∨ version = 2) (salt : Bytes) (hsalt : salt.length < 2 ^ 31) (iter : Int) (hi : -(2 ^ 31) ≤ iter ∧ iter < 2 ^ 31) :
    ∃ data' s'', bMarshal S U C order password' version salt iter = .ok data' ∧ bLoad S U data' password' = .ok s'' ∧ (bGetSealed S U C s'' al []).1 = .ok (some r) := by
  cases hsa : s al with
  | none => rw [bGetSealed, hsa] at hg; cases hg
  | some x =>
    obtain ⟨hxa, hxp⟩ := loaded_pw hl hsa
    obtain ⟨xa, xd, xc, xe⟩ := x
    cases xe with
    | cert _ _ => rw [bGetSealed, hsa] at hg; cases hg
    | key _ => rw [bGetSealed, hsa] at hg; cases hg
    | secret _ => rw [bGetSealed, hsa] at hg; cases hg
    | sealedKey e n p =>
      obtain ⟨rfl, rfl⟩ := hxp e n p rfl
      rw [bGetSealed, hsa] at hg
      simp only [Prod.mk.injEq] at hg
      obtain ⟨hg1, rfl⟩ := hg
      obtain ⟨e', k, hk1, hk2⟩ : ∃ e' k, (decryptSealed S U C pw e none []).2 = .sealedKey e' (some k) [] ∧ recover k = .ok r := by
        generalize hd : decryptSealed S U C pw e none [] = q at hg1
        have hq : ∃ e' n', q.2 = .sealedKey e' n' [] := by
          rw [← hd, decryptSealed]
          repeat' split
          all_goals exact ⟨_, _, rfl⟩
        obtain ⟨e', n', hq⟩ := hq
        rw [hq] at hg1 ⊢
        cases hq1 : q.1 with
        | ok _ =>
          rw [hq1, Res.bind] at hg1
          cases n' with
          | none => cases hg1
          | some k =>
            simp only at hg1
            refine ⟨e', k, rfl, ?_⟩
            cases hr : recover k with
            | ok y => rw [hr] at hg1; simp only [Res.bind, Res.ok.injEq, Option.some.injEq] at hg1; rw [hg1]
            | err => rw [hr] at hg1; cases hg1
            | panic => rw [hr] at hg1; cases hg1
            | hang => rw [hr] at hg1; cases hg1
        | err => rw [hq1] at hg1; cases hg1
        | panic => rw [hq1] at hg1; cases hg1
        | hang => rw [hq1] at hg1; cases hg1
      rw [hk1] at ho
      simp only at hxa
      subst hxa
      have hal : ∀ a x, set s xa (⟨xa, xd, xc, .sealedKey e' (some k) []⟩ : BItem) a = some x → x.al = a := by
        intro a x h
        rw [set] at h
        split at h
        · rename_i h'; cases h; exact h'.symm
        · exact (loaded_pw hl h).1
      obtain ⟨h1, h2, h3⟩ := save_load S U C order _ ho hal hf
      obtain ⟨i1, i2⟩ := signed32_mod iter hi.1 hi.2
      refine ⟨_, _, ?_, (C127_parse_iff ..).2 ⟨version, salt, (iter % 2 ^ 32).toNat, order.map fun x => x.1.entry S U C x.2, [], hv, hsalt, i1, h1, h2, rfl, rfl⟩, ?_⟩
      · rw [bMarshal, if_neg (not_not.2 hv), bWriteAll_ok S U C order hf, Res.bind, derivedHmacKey_eq, Res.bind, hmacKeyLen_eq hv, List.append_nil, BSpec.rounds, i2]
        rfl
      · rcases h3 xa with ⟨g1, -⟩ | ⟨x, salt', g1, g2, g3, g4⟩
        · rw [set_same] at g1; cases g1
        · rw [set_same, Option.some.injEq] at g1
          subst g1
          obtain ⟨k', hk', hkf⟩ := g2.ent
          cases hk'
          obtain ⟨-, -, hdec⟩ := sealed_spec S U C salt' g3 k hkf []
          rw [BItem.saved, BSpec.Entry.toItem, BItem.entry] at g4
          simp only [BEnt.data, BSpec.Data.toEnt, Option.getD_some] at g4
          simp [bGetSealed, g4, hdec, hk2, Res.bind]

/-- Once a sealed key has been opened, or before it has been saved, every password opens it. -/
theorem C127_open_any_violated (S : Sha1) (U : Bytes → Bytes) (C : Bc 8) (s : BStore) (al : Bytes) (d : Int) (c : List Bytes) (k : BKey) (pw : Bytes) (r : Nat × Bytes)
    (hs : s al = some ⟨al, d, c, .sealedKey [] (some k) pw⟩) (hr : recover k = .ok r) (pw' : Bytes) : (bGetSealed S U C s al pw').1 = .ok (some r) := by
  simp [bGetSealed, hs, decryptSealed, hr, Res.bind]

/-- An attempt to open a sealed key with a wrong password replaces it, when what comes out is correctly padded but not a key: saving the store then succeeds and writes an
empty key, whatever had been sealed. -/
theorem C127_wrong_password_violated (S : Sha1) (U : Bytes → Bytes) (C : Bc 8) (s : BStore) (al : Bytes) (d : Int) (c : List Bytes) (salt : Bytes) (count : Nat) (blob pw : Bytes)
    (hsalt : salt.length < 2 ^ 31) (hcount : count < 2 ^ 32) (hs : s al = some ⟨al, d, c, .sealedKey (str32 salt ++ hx 4 count ++ blob) none []⟩) (dec : Bytes)
    (hd : p12Decrypt S U 8 C 24 pw salt (signed32 count) blob = .ok dec) (hk : readKey dec = .err) :
    (bGetSealed S U C s al pw).1 = .err ∧ ∃ x, (bGetSealed S U C s al pw).2 al = some x ∧
      ∀ salt', salt'.length = 8 → bWrite S U C x salt' = .ok (marshalEntryData 4 ⟨al, d, c, .secret []⟩ ++ str32 (sealedBytes S U C salt' ⟨0, [], [], []⟩ [])) := by
  have hr : (readBytes.bind fun salt' => readInt32.bind fun iter => (rdFull ((str32 salt ++ hx 4 count ++ blob).length - (salt'.length + 8))).bind fun b => Rd.ret (salt', iter, b)) (str32 salt ++ hx 4 count ++ blob) = .ok ((salt, count, blob), []) := by
    simp only [Rd.bind_ok, readBytes_ok', readInt32, rdNat_ok, rdFull_ok, Rd.ret_ok]
    refine ⟨salt, _, ⟨hsalt, by rw [List.append_assoc]⟩, count, blob, ⟨hcount, rfl⟩, blob, [], ⟨?_, by simp⟩, rfl, rfl⟩
    simp only [str32, List.length_append, hx_length]
    omega
  have hdec : decryptSealed S U C pw (str32 salt ++ hx 4 count ++ blob) none [] = (.err, .sealedKey (str32 salt ++ hx 4 count ++ blob) (some ⟨0, [], [], []⟩) []) := by
    rw [decryptSealed, if_neg (by simp only [str32, List.length_append, hx_length]; omega), hr]
    simp only
    rw [hd]
    simp only
    rw [hk]
  simp only [bGetSealed, hs, hdec]
  refine ⟨rfl, _, set_same .., ?_⟩
  intro salt' hs'
  obtain ⟨h1, -⟩ := sealed_spec S U C salt' hs' ⟨0, [], [], []⟩ ⟨by simp, by simp, by simp, by simp⟩ []
  rw [bWrite]
  simp only
  rw [h1]
  rfl

/-- A sealed key whose salt length has the top bit set is loaded without complaint and makes the program panic when it is opened. -/
theorem C127_open_panic_violated (S : Sha1) (U : Bytes → Bytes) (C : Bc 8) (s : BStore) (al : Bytes) (d : Int) (c : List Bytes) (n : Nat) (h1 : 2 ^ 31 ≤ n) (h2 : n < 2 ^ 32) (rest pw : Bytes)
    (hs : s al = some ⟨al, d, c, .sealedKey (hx 4 n ++ rest) none []⟩) : (bGetSealed S U C s al pw).1 = .panic := by
  have hdec : (decryptSealed S U C pw (hx 4 n ++ rest) none []).1 = .panic := by
    rw [decryptSealed, if_neg (by simp only [List.length_append, hx_length]; omega), Rd.bind, readBytes_panic n h1 h2]
    rfl
  simp only [bGetSealed, hs, hdec]
  rfl

/-! ### UBER -/

/-- A file is read exactly if it consists of version 1, salt, count and an encryption of well-formed entries with different names, anything, and the hash of these. -/
theorem C128_parse_iff (S : Sha1) (U : Bytes → Bytes) (T : Bc 16) (data password : Bytes) (s : BStore) :
    uLoad S U T data password = .ok s ↔ ∃ (salt : Bytes) (count : Nat) (ct : Bytes) (es : List BSpec.Entry) (rest : Bytes),
      salt.length < 2 ^ 31 ∧ count < 2 ^ 32 ∧ (∀ e ∈ es, e.Valid) ∧ (es.map BSpec.Entry.al).Nodup ∧ data = hx 4 1 ++ str32 salt ++ hx 4 count ++ ct ∧
      p12Decrypt S U 16 T 32 password salt (signed32 count) ct = .ok (BSpec.body es ++ rest ++ S.h.f (BSpec.body es ++ rest)) ∧ s = BSpec.store es := by
  rw [uLoad]
  have aux : ∀ (x : Res (BStore × Bytes)), (x.bind fun p => .ok p.1) = .ok s ↔ ∃ t, x = .ok (s, t) := by
    intro x
    cases x with
    | ok p => obtain ⟨a, b⟩ := p; simp [Res.bind]
    | err => simp [Res.bind]
    | panic => simp [Res.bind]
    | hang => simp [Res.bind]
  rw [aux]
  simp only [Rd.bind_ok, rdNat_ok, ite_fail, readBytes_ok', readInt32]
  have drop : ∀ (salt : Bytes) (count : Nat) (ct : Bytes), (hx 4 1 ++ (str32 salt ++ (hx 4 count ++ ct))).drop (salt.length + 12) = ct := by
    intro salt count ct
    rw [← List.append_assoc, ← List.append_assoc, List.drop_left']
    simp only [str32, List.length_append, hx_length]
    omega
  have len : ∀ (salt : Bytes) (count : Nat) (ct : Bytes), ¬(hx 4 1 ++ (str32 salt ++ (hx 4 count ++ ct))).length < salt.length + 12 := by
    intro salt count ct
    simp only [str32, List.length_append, hx_length]
    omega
  constructor
  · rintro ⟨t, v, u1, ⟨h1, h2⟩, rfl, salt, u2, ⟨h3, rfl⟩, count, ct, ⟨h5, rfl⟩, h7⟩
    subst h2
    rw [if_neg (len _ _ _), drop] at h7
    cases hd : p12Decrypt S U 16 T 32 password salt (signed32 count) ct with
    | ok dec =>
      rw [hd, Res.bind] at h7
      split at h7
      · cases h7
      rename_i hl
      split at h7
      · cases h7
      rename_i hh
      rw [not_not] at hh
      cases hb : bLoadEntries ((dec.take (dec.length - 20)).length + 1) newBKS (dec.take (dec.length - 20)) with
      | ok p =>
        obtain ⟨s1, t1⟩ := p
        rw [hb] at h7
        simp only [Res.bind, Res.ok.injEq, Prod.mk.injEq] at h7
        obtain ⟨rfl, -⟩ := h7
        obtain ⟨es, g1, g2, g3, g4⟩ := (bLoadEntries_new ..).1 hb
        refine ⟨salt, count, ct, es, t1, h3, h5, g1, g2, by simp only [List.append_assoc], ?_, g3⟩
        rw [hd, ← g4, hh, List.take_append_drop]
      | err => rw [hb] at h7; cases h7
      | panic => rw [hb] at h7; cases h7
      | hang => rw [hb] at h7; cases h7
    | err => rw [hd] at h7; cases h7
    | panic => rw [hd] at h7; cases h7
    | hang => rw [hd] at h7; cases h7
  · rintro ⟨salt, count, ct, es, rest, h1, h2, h3, h4, h5, h6, rfl⟩
    simp only [List.append_assoc] at h5
    subst h5
    refine ⟨ct, 1, _, ⟨by decide, rfl⟩, rfl, salt, _, ⟨h1, rfl⟩, count, ct, ⟨h2, rfl⟩, ?_⟩
    rw [if_neg (len _ _ _), drop, h6, Res.bind]
    have hf : (S.h.f (BSpec.body es ++ rest)).length = 20 := by rw [S.h.len, S.size]
    have hl : (BSpec.body es ++ rest ++ S.h.f (BSpec.body es ++ rest)).length = (BSpec.body es ++ rest).length + 20 := by rw [List.length_append, hf]
    rw [if_neg (by omega), hl, Nat.add_sub_cancel, List.take_left, List.drop_left, if_neg (by simp), (bLoadEntries_new _ _ (BSpec.store es)).2 ⟨es, h3, h4, rfl, rfl⟩]
    rfl

/-- Saving a store built by any calls and loading it shows the same contents, as for BKS. -/
theorem C128_saved (S : Sha1) (U : Bytes → Bytes) (C : Bc 8) (T : Bc 16) (ops : List BSpec.Op) (hok : ∀ op ∈ ops, op.Fits) (order : List (BItem × Bytes))
    (ho : BSpec.Lists (order.map Prod.fst) (bRun ops)) (hs : ∀ x ∈ order, x.2.length = 8) (password : Bytes) (salt : Bytes) (hsalt : salt.length < 2 ^ 31)
    (iter : Int) (hi : -(2 ^ 31) ≤ iter ∧ iter < 2 ^ 31) :
    ∃ data s, uMarshal S U C T order password salt iter = .ok data ∧ uLoad S U T data password = .ok s ∧ ∀ al, BShows S U C toMs s al (BSpec.last ops al) := by
  obtain ⟨h0, h1, h2, h3⟩ := saved_shows S U C ops hok order ho hs
  obtain ⟨i1, i2⟩ := signed32_mod iter hi.1 hi.2
  obtain ⟨ct, e1, e2, -, -⟩ := p12_roundtrip S U 16 (by decide) (by decide) T 32 password salt iter
    (BSpec.body (order.map fun x => x.1.entry S U C x.2) ++ S.h.f (BSpec.body (order.map fun x => x.1.entry S U C x.2)))
  refine ⟨_, _, ?_, (C128_parse_iff ..).2 ⟨salt, (iter % 2 ^ 32).toNat, ct, order.map fun x => x.1.entry S U C x.2, [], hsalt, i1, h1, h2, rfl, ?_, rfl⟩, h3⟩
  · rw [uMarshal, bWriteAll_ok S U C order h0, Res.bind, e1]
    rfl
  · rw [i2, e2]
    simp only [List.append_nil]

/-- A file that decrypts to fewer than 20 bytes makes the program panic: the test meant to prevent it can never be true. For every password and every such plaintext there is one. -/
theorem C128_short_violated (S : Sha1) (U : Bytes → Bytes) (T : Bc 16) (password salt : Bytes) (hsalt : salt.length < 2 ^ 31) (count : Nat) (hc : count < 2 ^ 32) (p : Bytes) (hp : p.length < 20) :
    ∃ ct, uLoad S U T (hx 4 1 ++ (str32 salt ++ (hx 4 count ++ ct))) password = .panic := by
  obtain ⟨ct, -, e2, -, -⟩ := p12_roundtrip S U 16 (by decide) (by decide) T 32 password salt (signed32 count) p
  refine ⟨ct, ?_⟩
  have drop : (hx 4 1 ++ (str32 salt ++ (hx 4 count ++ ct))).drop (salt.length + 12) = ct := by
    rw [← List.append_assoc, ← List.append_assoc, List.drop_left']
    simp only [str32, List.length_append, hx_length]
    omega
  have len : ¬(hx 4 1 ++ (str32 salt ++ (hx 4 count ++ ct))).length < salt.length + 12 := by
    simp only [str32, List.length_append, hx_length]
    omega
  rw [uLoad, Rd.bind_of_ok ((rdNat_ok 4 _ _ 1).2 ⟨by decide, rfl⟩), if_neg (by simp), Rd.bind_of_ok ((readBytes_ok' _ salt _).2 ⟨hsalt, rfl⟩),
    readInt32, Rd.bind_of_ok ((rdNat_ok 4 _ ct count).2 ⟨hc, rfl⟩), if_neg len, drop, e2, Res.bind, if_pos hp]
  rfl

/-! ### The hypotheses are met -/

def exOps : List BSpec.Op :=
  [⟨[0x61#8], [[1#8]], 7000000, .sealedKey 2 [0x41#8] [7#8] [0x70#8]⟩, ⟨[0x61#8], [], 5000000, .cert [9#8]⟩, ⟨[0x62#8], [], 0, .key 0 [] [1#8, 2#8]⟩, ⟨[0x63#8], [], 0, .secret [3#8]⟩]

/-- A history that uses a name twice and has every kind of entry. -/
example : ∀ op ∈ exOps, op.Fits := by
  intro op h
  simp only [exOps, List.mem_cons, List.not_mem_nil, or_false] at h
  rcases h with rfl | rfl | rfl | rfl
  · exact ⟨by simp, by simp, by simp, by simp, by simp⟩
  · exact ⟨by simp, by simp, by simp, by simp, by simp⟩
  · exact ⟨by simp, by simp, by simp, by simp, by simp⟩
  · exact ⟨by simp, by simp, by simp, by simp, by simp⟩

/-- A loaded store with a sealed key, opened with its password: the hypotheses of `C127_resave_violated` and `C127_reseal_violated` are met. -/
example (S : Sha1) (U : Bytes → Bytes) (C : Bc 8) : ∃ (data : Bytes) (s s' : BStore) (order : List (BItem × Bytes)), bLoad S U data [0x70#8] = .ok s ∧ (∃ a d c e n pw, s a = some ⟨a, d, c, .sealedKey e n pw⟩) ∧
    bGetSealed S U C s [0x61#8] [0x71#8] = (.ok (some (2, [7#8])), s') ∧ BSpec.Lists (order.map Prod.fst) s' ∧ ∀ x ∈ order, x.1.Fits ∧ List.length x.2 = 8 := by
  have hk : (⟨2, sRAW, [], [7#8]⟩ : BKey).Fits (2 ^ 30) := ⟨by simp, by simp [sRAW], by simp, by simp⟩
  obtain ⟨-, h2, h3⟩ := sealed_spec S U C (List.replicate 8 0#8) (by simp) _ hk [0x71#8]
  generalize sealedBytes S U C (List.replicate 8 0#8) ⟨2, sRAW, [], [7#8]⟩ [0x71#8] = sb at h2 h3
  refine ⟨_, _, set (BSpec.store [⟨[0x61#8], 0, [], 0, .sealedKey (sb)⟩]) [0x61#8] ⟨[0x61#8], 0, [], .sealedKey [] (some ⟨2, sRAW, [], [7#8]⟩) []⟩,
    [(⟨[0x61#8], 0, [], .sealedKey [] (some ⟨2, sRAW, [], [7#8]⟩) []⟩, List.replicate 8 0#8)], (C127_parse_iff ..).2
      ⟨1, [], 1, [⟨[0x61#8], 0, [], 0, .sealedKey (sb)⟩], [], .inl rfl, by simp, by simp, ?_, by simp, rfl, rfl⟩, ⟨[0x61#8], _, [], sb, none, [], rfl⟩, ?_, ⟨by simp, ?_⟩, ?_⟩
  · intro e he
    rw [List.mem_singleton] at he
    subst he
    exact ⟨by simp, by simp, by simp, by simp [signed32], by simp, h2⟩
  · have : BSpec.store [⟨[0x61#8], 0, [], 0, .sealedKey (sb)⟩] [0x61#8] =
        some ⟨[0x61#8], signed64 0 * 1000000, [], .sealedKey (sb) none []⟩ := rfl
    rw [show signed64 0 * 1000000 = 0 by simp [signed64]] at this
    rw [bGetSealed, this]
    simp only [h3]
    rfl
  · intro x
    simp only [List.map_cons, List.map_nil, List.mem_singleton]
    rw [set]
    constructor
    · rintro rfl; rfl
    · intro h
      split at h
      · cases h; rfl
      · rename_i h'
        rw [BSpec.store, List.find?_cons] at h
        have : ([0x61#8] == x.al) = false := by simp; exact fun hh => h' hh.symm
        rw [this] at h
        cases h
  · intro x hx1
    rw [List.mem_singleton] at hx1
    subst hx1
    exact ⟨⟨by simp, by simp, by simp, by simp, ⟨_, rfl, hk⟩⟩, by simp⟩

end Verif.Jks
