import Verif.Jks.JksLemmas
/-
C125: JKS key stores.
-/
namespace Verif.Jks
open Verif.Cipher Verif.Pub Verif.Kdf Spec

/-! ### Key protection -/

/-- A protected key is opened exactly by the password it was protected with, up to equal hashes: the call returns `key` if and only if the
content is the protection of `key` under some 20-byte salt. -/
theorem C125_key_iff (S : Sha1) (A : Asn1) (e password key : Bytes) :
    decryptKey S A e password = .ok key ↔ ∃ salt, salt.length = 20 ∧ A.unwrap e = some (protect S.h.f (utf16 password) salt key) := by
  rw [decryptKey]
  cases hu : A.unwrap e with
  | none => simp
  | some encr =>
    simp only [Option.some.injEq]
    rw [charsToBytes_eq]
    constructor
    · intro h
      split at h
      · cases h
      rename_i hl
      split at h
      · rename_i hc
        rw [Res.ok.injEq] at h
        have h20 : (encr.take 20).length = 20 := by rw [List.length_take]; omega
        refine ⟨encr.take 20, h20, ?_⟩
        rw [protect_eq _ _ _ _ h20, ← h, keyLoop_invol _ _ _ _ h20, ← hc, List.append_assoc, show encr.length - 40 = (encr.length - 20) - 20 by omega]
        have : encr.drop (encr.length - 20) = (encr.drop 20).drop (encr.length - 20 - 20) := by
          rw [List.drop_drop]; congr 1; omega
        rw [this, List.take_append_drop, List.take_append_drop]
      · cases h
    · rintro ⟨salt, hs, rfl⟩
      rw [protect_eq _ _ _ _ hs]
      have l1 := keyLoop_length S (utf16 password) salt key hs
      have l2 : (S.h.f (utf16 password ++ key)).length = 20 := by rw [S.h.len, S.size]
      have hl : (salt ++ keyLoop S (utf16 password) salt key ++ S.h.f (utf16 password ++ key)).length = key.length + 40 := by
        simp only [List.length_append]; omega
      rw [if_neg (by omega), hl, show key.length + 40 - 20 = (salt ++ keyLoop S (utf16 password) salt key).length by simp only [List.length_append]; omega,
        List.drop_left, List.append_assoc, ← hs, List.take_left, List.drop_left, show key.length + 40 - 40 = (keyLoop S (utf16 password) salt key).length by omega,
        List.take_left, keyLoop_invol _ _ _ _ hs, if_pos rfl]

/-- Opening undoes protecting, for every key, password and salt. -/
theorem C125_key_roundtrip (S : Sha1) (A : Asn1) (rnd key password : Bytes) (hr : rnd.length = 20) :
    decryptKey S A (encryptKey S A rnd key password) password = .ok key := by
  rw [C125_key_iff]
  refine ⟨rnd, hr, ?_⟩
  rw [encryptKey, A.unwrap_wrap, protect_eq _ _ _ _ hr, charsToBytes_eq]

/-- With another password the key is opened only if the hash of that password and what it decrypts to equals the stored hash. -/
theorem C125_key_other (S : Sha1) (A : Asn1) (rnd key password password' key' : Bytes) (hr : rnd.length = 20)
    (h : decryptKey S A (encryptKey S A rnd key password) password' = .ok key') :
    key'.length = key.length ∧ S.h.f (utf16 password' ++ key') = S.h.f (utf16 password ++ key) := by
  obtain ⟨salt, hs, h1⟩ := (C125_key_iff ..).1 h
  rw [encryptKey, A.unwrap_wrap, Option.some.injEq, charsToBytes_eq, protect_eq _ _ _ _ hs] at h1
  have l1 := keyLoop_length S (utf16 password) rnd key hr
  have l2 := keyLoop_length S (utf16 password') salt key' hs
  have l3 : (S.h.f (utf16 password ++ key)).length = (S.h.f (utf16 password' ++ key')).length := by rw [S.h.len, S.h.len]
  have hl := congrArg List.length h1
  simp only [List.length_append] at hl
  have := List.append_inj h1 (by simp only [List.length_append]; omega)
  exact ⟨by omega, this.2.symm⟩

/-- A protected key whose content is shorter than 40 bytes makes the call panic; nothing else does. -/
theorem C125_key_panic_violated (S : Sha1) (A : Asn1) (e password : Bytes) :
    decryptKey S A e password = .panic ↔ ∃ d, A.unwrap e = some d ∧ d.length < 40 := by
  rw [decryptKey]
  cases A.unwrap e with
  | none => simp
  | some encr =>
    simp only [Option.some.injEq, exists_eq_left']
    split
    · simp [*]
    · split <;> simp [*]

/-! ### Reading files -/

/-- A file is read, with a password, exactly if it consists of a well-formed body, the hash of the password and the body, and anything after that.
The store then holds the entries of the body. -/
theorem C125_parse_iff (S : Sha1) (s0 s : Store) (data password : Bytes) :
    parse S s0 data password = .ok s ↔ ∃ (count : Nat) (es : List Entry) (rest : Bytes), count < 2 ^ 32 ∧ es.length = (signed32 count).toNat ∧
      (∀ e ∈ es, e.Valid) ∧ data = body count es ++ digest S.h.f password (body count es) ++ rest ∧ s = es.foldl Entry.into s0 := by
  rw [parse]
  constructor
  · intro h
    cases hb : parseBody s0 data with
    | ok p =>
      obtain ⟨s1, t⟩ := p
      rw [hb] at h
      simp only [Res.bind] at h
      obtain ⟨count, es, h1, h2, h3, h4, h5⟩ := (parseBody_ok ..).1 hb
      cases hf : rdFull 20 t with
      | ok q =>
        obtain ⟨b, rest⟩ := q
        rw [hf] at h
        simp only at h
        obtain ⟨h6, rfl⟩ := (rdFull_ok ..).1 hf
        split at h
        · rename_i hk
          rw [Res.ok.injEq] at h
          refine ⟨count, es, rest, h1, h2, h3, ?_, by rw [← h, h4]⟩
          have : data.take (data.length - (b ++ rest).length) = body count es := by
            rw [h5, List.length_append (as := body count es), Nat.add_sub_cancel, List.take_left]
          rw [this, keyedHash_eq] at hk
          rw [hk, List.append_assoc, ← h5]
        · cases h
      | err => rw [hf] at h; cases h
      | panic => rw [hf] at h; cases h
      | hang => rw [hf] at h; cases h
    | err => rw [hb] at h; cases h
    | panic => rw [hb] at h; cases h
    | hang => rw [hb] at h; cases h
  · rintro ⟨count, es, rest, h1, h2, h3, h4, rfl⟩
    rw [List.append_assoc] at h4
    have hb : parseBody s0 data = .ok (es.foldl Entry.into s0, digest S.h.f password (body count es) ++ rest) :=
      (parseBody_ok ..).2 ⟨count, es, h1, h2, h3, rfl, h4⟩
    rw [hb]
    simp only [Res.bind]
    have hf : rdFull 20 (digest S.h.f password (body count es) ++ rest) = .ok (digest S.h.f password (body count es), rest) :=
      (rdFull_ok ..).2 ⟨by rw [digest, S.h.len, S.size], rfl⟩
    rw [hf]
    simp only
    rw [if_pos]
    rw [keyedHash_eq, h4, List.length_append (as := body count es), Nat.add_sub_cancel, List.take_left]

/-- Bytes after the hash are ignored. -/
theorem C125_trailing_violated {S : Sha1} {s0 s : Store} {data password : Bytes} (h : parse S s0 data password = .ok s) (extra : Bytes) :
    parse S s0 (data ++ extra) password = .ok s := by
  obtain ⟨count, es, rest, h1, h2, h3, h4, h5⟩ := (C125_parse_iff ..).1 h
  exact (C125_parse_iff ..).2 ⟨count, es, rest ++ extra, h1, h2, h3, by rw [h4]; simp only [List.append_assoc], h5⟩

/-- A file that stops being well formed at a length field with the top bit set makes the program panic, for every password: the hash is checked only after
everything has been read. -/
theorem C125_panic_violated (S : Sha1) (password al rest : Bytes) (ms n : Nat) (ha : al.length < 2 ^ 16) (hm : ms < 2 ^ 64) (h1 : 2 ^ 31 ≤ n) (h2 : n < 2 ^ 32) :
    load S (hx 4 0xFEEDFEED ++ (hx 4 2 ++ (hx 4 1 ++ (hx 4 2 ++ (str16 al ++ (hx 8 ms ++ (str16 x509 ++ (hx 4 n ++ rest)))))))) password = .panic := by
  have e : parseBody newJKS (hx 4 0xFEEDFEED ++ (hx 4 2 ++ (hx 4 1 ++ (hx 4 2 ++ (str16 al ++ (hx 8 ms ++ (str16 x509 ++ (hx 4 n ++ rest)))))))) = .panic := by
    rw [x509_eq, parseBody, Rd.bind_of_ok ((rdNat_ok 4 _ _ _).2 ⟨by decide, rfl⟩), if_neg (by simp), Rd.bind_of_ok ((rdNat_ok 4 _ _ _).2 ⟨by decide, rfl⟩), if_neg (by simp), readInt32,
      Rd.bind_of_ok ((rdNat_ok 4 _ _ 1).2 ⟨by decide, rfl⟩), show (signed32 1).toNat = 0 + 1 from rfl, parseEntries, readInt32,
      Rd.bind_of_ok ((rdNat_ok 4 _ _ 2).2 ⟨by decide, rfl⟩), if_neg (by decide), if_pos rfl, Rd.bind, parseTrustedCert,
      Rd.bind_of_ok ((readUTF_ok' _ al _).2 ⟨ha, rfl⟩), Rd.bind_of_ok ((readDate_ok _ _ _).2 ⟨ms, hm, rfl, rfl⟩),
      Rd.bind_of_ok ((readUTF_ok' _ certType _).2 ⟨by decide, rfl⟩), if_neg (by simp), Rd.bind, readBytes_panic n h1 h2]
    rfl
  rw [load, parse, e]
  rfl

/-! ### Histories -/

/-- One call; a call that returns an error leaves the store as it is. -/
def step (S : Sha1) (A : Asn1) (s : Store) (op : Op) : Store :=
  match (match op with
    | .key al k pw chain rnd now => addPrivateKey S A s al k pw chain rnd now
    | .enc al e chain now => addEncoded s al e chain now
    | .cert al c now => addCert s al c now) with
  | .ok s' => s'
  | _ => s

/-- The store after calls on a new store, most recent first. -/
def run (S : Sha1) (A : Asn1) : List Op → Store
  | [] => newJKS
  | op :: ops => step S A (run S A ops) op

/-- The random bytes of a call are 20. -/
def Spec.Op.Ok : Op → Prop
  | .key _ _ _ _ rnd _ => rnd.length = 20
  | _ => True

/-- What the getters return for a name. -/
def Shows (S : Sha1) (A : Asn1) (s : Store) (al : Bytes) : Option (Content × Int) → Prop
  | none => getCert s al = .err ∧ getEncodedKey s al = .err ∧ getCertChain s al = .err ∧ getCreateDate s al = .err ∧ al ∉ s.aliases ∧
      ∀ pw, getPrivateKey S A s al pw = .err
  | some (.key k pw chain, t) => getPrivateKey S A s al pw = .ok k ∧ getCertChain s al = .ok chain ∧ getCert s al = .err ∧ getCreateDate s al = .ok t ∧ al ∈ s.aliases
  | some (.enc e chain, t) => getEncodedKey s al = .ok e ∧ getCertChain s al = .ok chain ∧ getCert s al = .err ∧ getCreateDate s al = .ok t ∧ al ∈ s.aliases
  | some (.cert c, t) => getCert s al = .ok c ∧ getEncodedKey s al = .err ∧ getCertChain s al = .err ∧ getCreateDate s al = .ok t ∧ al ∈ s.aliases

/-- the maps of a store under a name -/
def Holds (S : Sha1) (A : Asn1) (s : Store) (al : Bytes) : Option (Content × Int) → Prop
  | none => s.trustedCerts al = none ∧ s.privateKeys al = none ∧ s.certChains al = none ∧ s.dates al = none ∧ al ∉ s.aliases
  | some (.key k pw chain, t) => s.trustedCerts al = none ∧ (∃ rnd, rnd.length = 20 ∧ s.privateKeys al = some (encryptKey S A rnd k pw)) ∧ s.certChains al = some chain ∧
      s.dates al = some t ∧ al ∈ s.aliases
  | some (.enc e chain, t) => s.trustedCerts al = none ∧ s.privateKeys al = some e ∧ s.certChains al = some chain ∧ s.dates al = some t ∧ al ∈ s.aliases
  | some (.cert c, t) => s.trustedCerts al = some c ∧ s.privateKeys al = none ∧ s.certChains al = none ∧ s.dates al = some t ∧ al ∈ s.aliases

theorem shows_of_holds {S : Sha1} {A : Asn1} {s : Store} {al : Bytes} {x : Option (Content × Int)} (h : Holds S A s al x) : Shows S A s al x := by
  match x, h with
  | none, ⟨h1, h2, h3, h4, h5⟩ => simp [Shows, getCert, getEncodedKey, getCertChain, getCreateDate, getPrivateKey, look, h1, h2, h3, h4, h5, Res.bind]
  | some (.key k pw chain, t), ⟨h1, ⟨rnd, hr, h2⟩, h3, h4, h5⟩ =>
    simp [Shows, getCert, getCertChain, getCreateDate, getPrivateKey, look, h1, h2, h3, h4, h5, Res.bind, C125_key_roundtrip S A rnd k pw hr]
  | some (.enc e chain, t), ⟨h1, h2, h3, h4, h5⟩ => simp [Shows, getCert, getEncodedKey, getCertChain, getCreateDate, look, h1, h2, h3, h4, h5]
  | some (.cert c, t), ⟨h1, h2, h3, h4, h5⟩ => simp [Shows, getCert, getEncodedKey, getCertChain, getCreateDate, look, h1, h2, h3, h4, h5]

theorem set_same {α : Type} (m : Bytes → Option α) (k : Bytes) (v : α) : set m k v k = some v := by simp [set]
theorem set_other {α : Type} (m : Bytes → Option α) (k a : Bytes) (v : α) (h : a ≠ k) : set m k v a = m a := by simp [set, h]

theorem holds_other {S : Sha1} {A : Asn1} {s s' : Store} {a : Bytes} {x : Option (Content × Int)} (h : Holds S A s a x) (h1 : s'.trustedCerts a = s.trustedCerts a)
    (h2 : s'.privateKeys a = s.privateKeys a) (h3 : s'.certChains a = s.certChains a) (h4 : s'.dates a = s.dates a) (h5 : a ∈ s'.aliases ↔ a ∈ s.aliases) :
    Holds S A s' a x := by
  match x, h with
  | none, h => simpa [Holds, h1, h2, h3, h4, h5] using h
  | some (.key k pw chain, t), h => simpa [Holds, h1, h2, h3, h4, h5] using h
  | some (.enc e chain, t), h => simpa [Holds, h1, h2, h3, h4, h5] using h
  | some (.cert c, t), h => simpa [Holds, h1, h2, h3, h4, h5] using h

theorem touch_other {s : Store} {al a : Bytes} {now : Int} (h : a ≠ al) : (touch s al now).trustedCerts a = s.trustedCerts a ∧
    (touch s al now).privateKeys a = s.privateKeys a ∧ (touch s al now).certChains a = s.certChains a ∧ (touch s al now).dates a = s.dates a ∧
    (a ∈ (touch s al now).aliases ↔ a ∈ s.aliases) := by
  rw [touch]; split <;> simp [set, h]

theorem touch_old {s : Store} {al : Bytes} {now : Int} (h : al ∈ s.aliases) : touch s al now = s := by rw [touch, if_pos h]

theorem touch_new {s : Store} {al : Bytes} {now : Int} (h : al ∉ s.aliases) :
    touch s al now = { s with dates := set s.dates al now, aliases := s.aliases ++ [al] } := by rw [touch, if_neg h]

theorem run_holds (S : Sha1) (A : Asn1) : ∀ (ops : List Op), (∀ op ∈ ops, op.Ok) → ∀ a, Holds S A (run S A ops) a (content ops a)
  | [], _, a => by simp [Holds, content, run, newJKS]
  | op :: ops, hok, a => by
    have ih := run_holds S A ops (fun o ho => hok o (by simp [ho]))
    have hop := hok op (by simp)
    rw [run]
    generalize run S A ops = s at ih
    have iha := ih a
    cases op with
    | key b k pw chain rnd now =>
      rw [step, content]
      simp only [addPrivateKey]
      by_cases hab : a = b
      · subst hab
        rw [if_pos rfl]
        cases hc : content ops a with
        | none =>
          rw [hc] at iha
          obtain ⟨h1, h2, h3, h4, h5⟩ := iha
          rw [h1, if_neg (by simp)]
          simp only
          rw [touch_new (by exact h5)]
          exact ⟨h1, ⟨rnd, hop, set_same ..⟩, set_same .., set_same .., by simp⟩
        | some x =>
          rw [hc] at iha
          obtain ⟨x, t⟩ := x
          cases x with
          | key k' pw' chain' =>
            obtain ⟨h1, h2, h3, h4, h5⟩ := iha
            rw [h1, if_neg (by simp)]
            simp only
            rw [touch_old (by exact h5)]
            exact ⟨h1, ⟨rnd, hop, set_same ..⟩, set_same .., h4, h5⟩
          | enc e chain' =>
            obtain ⟨h1, h2, h3, h4, h5⟩ := iha
            rw [h1, if_neg (by simp)]
            simp only
            rw [touch_old (by exact h5)]
            exact ⟨h1, ⟨rnd, hop, set_same ..⟩, set_same .., h4, h5⟩
          | cert c =>
            obtain ⟨h1, h2, h3, h4, h5⟩ := iha
            rw [h1, if_pos (by simp)]
            exact ⟨h1, h2, h3, h4, h5⟩
      · rw [if_neg hab]
        split
        · rename_i s' hs'
          split at hs'
          · cases hs'
          · rw [Res.ok.injEq] at hs'
            subst hs'
            obtain ⟨g1, g2, g3, g4, g5⟩ := touch_other (s := { s with privateKeys := set s.privateKeys b (encryptKey S A rnd k pw), certChains := set s.certChains b chain }) (now := now) hab
            exact holds_other iha g1 (g2.trans (set_other _ _ _ _ hab)) (g3.trans (set_other _ _ _ _ hab)) g4 g5
        · exact iha
    | enc b e chain now =>
      rw [step, content]
      simp only [addEncoded]
      by_cases hab : a = b
      · subst hab
        rw [if_pos rfl]
        cases hc : content ops a with
        | none =>
          rw [hc] at iha
          obtain ⟨h1, h2, h3, h4, h5⟩ := iha
          rw [h1, if_neg (by simp)]
          simp only
          rw [touch_new (by exact h5)]
          exact ⟨h1, set_same .., set_same .., set_same .., by simp⟩
        | some x =>
          rw [hc] at iha
          obtain ⟨x, t⟩ := x
          cases x with
          | key k' pw' chain' =>
            obtain ⟨h1, h2, h3, h4, h5⟩ := iha
            rw [h1, if_neg (by simp)]
            simp only
            rw [touch_old (by exact h5)]
            exact ⟨h1, set_same .., set_same .., h4, h5⟩
          | enc e chain' =>
            obtain ⟨h1, h2, h3, h4, h5⟩ := iha
            rw [h1, if_neg (by simp)]
            simp only
            rw [touch_old (by exact h5)]
            exact ⟨h1, set_same .., set_same .., h4, h5⟩
          | cert c =>
            obtain ⟨h1, h2, h3, h4, h5⟩ := iha
            rw [h1, if_pos (by simp)]
            exact ⟨h1, h2, h3, h4, h5⟩
      · rw [if_neg hab]
        split
        · rename_i s' hs'
          split at hs'
          · cases hs'
          · rw [Res.ok.injEq] at hs'
            subst hs'
            obtain ⟨g1, g2, g3, g4, g5⟩ := touch_other (s := { s with privateKeys := set s.privateKeys b e, certChains := set s.certChains b chain }) (now := now) hab
            exact holds_other iha g1 (g2.trans (set_other _ _ _ _ hab)) (g3.trans (set_other _ _ _ _ hab)) g4 g5
        · exact iha
    | cert b c now =>
      rw [step, content]
      simp only [addCert]
      by_cases hab : a = b
      · subst hab
        rw [if_pos rfl]
        cases hc : content ops a with
        | none =>
          rw [hc] at iha
          obtain ⟨h1, h2, h3, h4, h5⟩ := iha
          rw [h2, if_neg (by simp)]
          by_cases hz : c = []
          · subst hz; simp only [List.length_nil, if_true]; exact ⟨h1, h2, h3, h4, h5⟩
          · rw [if_neg (by simpa using hz)]
            simp only
            rw [if_neg hz, touch_new (by exact h5)]
            exact ⟨set_same .., h2, h3, set_same .., by simp⟩
        | some x =>
          rw [hc] at iha
          obtain ⟨x, t⟩ := x
          cases x with
          | key k' pw' chain' =>
            obtain ⟨h1, ⟨r, hr, h2⟩, h3, h4, h5⟩ := iha
            rw [h2, if_pos (by simp)]
            exact ⟨h1, ⟨r, hr, h2⟩, h3, h4, h5⟩
          | enc e chain' =>
            obtain ⟨h1, h2, h3, h4, h5⟩ := iha
            rw [h2, if_pos (by simp)]
            exact ⟨h1, h2, h3, h4, h5⟩
          | cert c' =>
            obtain ⟨h1, h2, h3, h4, h5⟩ := iha
            rw [h2, if_neg (by simp)]
            by_cases hz : c = []
            · subst hz; simp only [List.length_nil, if_true]; exact ⟨h1, h2, h3, h4, h5⟩
            · rw [if_neg (by simpa using hz)]
              simp only
              rw [if_neg hz, touch_old (by exact h5)]
              exact ⟨set_same .., h2, h3, h4, h5⟩
      · rw [if_neg hab]
        split
        · rename_i s' hs'
          split at hs'
          · cases hs'
          split at hs'
          · cases hs'
          · rw [Res.ok.injEq] at hs'
            subst hs'
            obtain ⟨g1, g2, g3, g4, g5⟩ := touch_other (s := { s with trustedCerts := set s.trustedCerts b c }) (now := now) hab
            exact holds_other iha (g1.trans (set_other _ _ _ _ hab)) g2 g3 g4 g5
        · exact iha

/-- After any calls on a new store, the getters return what the calls put there: the last key or certificate accepted under each name, its password opening
the key, and the date of the first one. -/
theorem C125_history (S : Sha1) (A : Asn1) (ops : List Op) (hok : ∀ op ∈ ops, op.Ok) (al : Bytes) : Shows S A (run S A ops) al (content ops al) :=
  shows_of_holds (run_holds S A ops hok al)

/-! ### Saving and loading -/

/-- A date without what is below a millisecond. -/
def toMs (t : Int) : Int := t.tdiv 1000000 * 1000000

/-- The store fits the fields of the file format. -/
structure Fits (s : Store) : Prop where
  count : s.aliases.length < 2 ^ 31
  name : ∀ a ∈ s.aliases, a.length < 2 ^ 16
  cert : ∀ a c, s.trustedCerts a = some c → c.length < 2 ^ 31
  key : ∀ a k, s.privateKeys a = some k → k.length < 2 ^ 31
  chain : ∀ a l, s.certChains a = some l → l.length < 2 ^ 31 ∧ ∀ c ∈ l, c.length < 2 ^ 31
  date : ∀ a t, s.dates a = some t → -(2 ^ 63) ≤ t ∧ t < 2 ^ 63

/-- each name has a date and either a certificate or a key with its chain; other names have nothing -/
structure Shape (s : Store) : Prop where
  of_mem : ∀ a ∈ s.aliases, (s.dates a).isSome ∧ (((s.trustedCerts a).isSome ∧ s.privateKeys a = none ∧ s.certChains a = none) ∨
    (s.trustedCerts a = none ∧ (s.privateKeys a).isSome ∧ (s.certChains a).isSome))
  of_not_mem : ∀ a, a ∉ s.aliases → s.trustedCerts a = none ∧ s.privateKeys a = none ∧ s.certChains a = none ∧ s.dates a = none

theorem shape_of_holds {S : Sha1} {A : Asn1} {s : Store} {c : Bytes → Option (Content × Int)} (h : ∀ a, Holds S A s a (c a)) : Shape s := by
  constructor
  · intro a ha
    have := h a
    cases hc : c a with
    | none => rw [hc] at this; exact absurd ha this.2.2.2.2
    | some x =>
      obtain ⟨x, t⟩ := x
      rw [hc] at this
      cases x with
      | key k pw chain => obtain ⟨h1, ⟨r, hr, h2⟩, h3, h4, h5⟩ := this; simp [h1, h2, h3, h4]
      | enc e chain => obtain ⟨h1, h2, h3, h4, h5⟩ := this; simp [h1, h2, h3, h4]
      | cert c => obtain ⟨h1, h2, h3, h4, h5⟩ := this; simp [h1, h2, h3, h4]
  · intro a ha
    have := h a
    cases hc : c a with
    | none => rw [hc] at this; exact ⟨this.1, this.2.1, this.2.2.1, this.2.2.2.1⟩
    | some x =>
      obtain ⟨x, t⟩ := x
      rw [hc] at this
      cases x with
      | key k pw chain => exact absurd this.2.2.2.2 ha
      | enc e chain => exact absurd this.2.2.2.2 ha
      | cert c => exact absurd this.2.2.2.2 ha

/-- the entry written for a name -/
def entryOf (s : Store) (a : Bytes) : Entry :=
  if (s.trustedCerts a).isSome then .cert a (stamp ((s.dates a).getD 0)) ((s.trustedCerts a).getD [])
  else .key a (stamp ((s.dates a).getD 0)) ((s.privateKeys a).getD []) ((s.certChains a).getD []) ((s.certChains a).getD []).length

theorem writeEntry_eq (s : Store) (a : Bytes) : writeEntry s a = (entryOf s a).enc := by
  rw [writeEntry, entryOf]
  split <;> rfl

theorem entryOf_one (al cert : Bytes) (now : Int) :
    List.map (Entry.enc) (List.map (entryOf ⟨[al], set (fun _ => none) al cert, fun _ => none, fun _ => none, set (fun _ => none) al now⟩) [al]) =
      [(Entry.cert al (stamp now) cert).enc] := by
  simp [entryOf, set]

theorem marshal_eq (S : Sha1) (s : Store) (password : Bytes) :
    marshal S s password = body s.aliases.length (s.aliases.map (entryOf s)) ++ digest S.h.f password (body s.aliases.length (s.aliases.map (entryOf s))) := by
  have e : s.aliases.map (writeEntry s) = (s.aliases.map (entryOf s)).map Entry.enc := by
    rw [List.map_map]; exact List.map_congr_left fun a _ => writeEntry_eq s a
  rw [marshal]
  simp only [keyedHash_eq]
  rw [e]
  rfl

theorem entryOf_valid {s : Store} (hf : Fits s) (hs : Shape s) {a : Bytes} (ha : a ∈ s.aliases) : (entryOf s a).Valid := by
  obtain ⟨hd, h⟩ := hs.of_mem a ha
  rw [entryOf]
  split
  · rename_i ht
    obtain ⟨c, hc⟩ := Option.isSome_iff_exists.1 ht
    exact ⟨hf.name a ha, stamp_lt _, by rw [hc]; exact hf.cert a c hc⟩
  · rename_i ht
    obtain ⟨-, h2, h3⟩ := h.resolve_left fun h => ht h.1
    obtain ⟨k, hk⟩ := Option.isSome_iff_exists.1 h2
    obtain ⟨l, hl⟩ := Option.isSome_iff_exists.1 h3
    obtain ⟨h4, h5⟩ := hf.chain a l hl
    refine ⟨hf.name a ha, stamp_lt _, by rw [hk]; exact hf.key a k hk, ?_, ?_, ?_⟩
    · rw [hl]; exact h5
    · rw [hl, Option.getD_some]; omega
    · rw [hl, Option.getD_some, signed32, if_pos h4, Int.toNat_natCast]

/-- the part of a store under the names `pre`, with dates in milliseconds -/
def restr (s : Store) (pre : List Bytes) : Store where
  aliases := pre
  trustedCerts a := if a ∈ pre then s.trustedCerts a else none
  privateKeys a := if a ∈ pre then s.privateKeys a else none
  certChains a := if a ∈ pre then s.certChains a else none
  dates a := if a ∈ pre then (s.dates a).map toMs else none

theorem into_restr {s : Store} (hf : Fits s) (hs : Shape s) (pre : List Bytes) {a : Bytes} (ha : a ∈ s.aliases) :
    (entryOf s a).into (restr s pre) = restr s (pre ++ [a]) := by
  obtain ⟨hd, h⟩ := hs.of_mem a ha
  obtain ⟨t, ht⟩ := Option.isSome_iff_exists.1 hd
  obtain ⟨d1, d2⟩ := hf.date a t ht
  have hm : ∀ b, b ∈ pre ++ [a] ↔ b = a ∨ b ∈ pre := fun b => by simp [or_comm]
  have hdate : set (restr s pre).dates a (signed64 (stamp ((s.dates a).getD 0)) * 1000000) = (restr s (pre ++ [a])).dates := by
    funext b
    rw [ht, Option.getD_some, stamp_signed t d1 d2]
    by_cases hb : b = a
    · subst hb; simp [set, restr, ht, toMs]
    · simp [set, restr, hb]
  rw [entryOf]
  split
  · rename_i hc
    obtain ⟨c, hc⟩ := Option.isSome_iff_exists.1 hc
    have h' : s.privateKeys a = none ∧ s.certChains a = none := by
      rcases h with h | h
      · exact h.2
      · rw [hc] at h; cases h.1
    rw [Entry.into, hdate]
    simp only [restr, Store.mk.injEq, true_and]
    refine ⟨?_, ?_, ?_, trivial⟩
    · funext b
      by_cases hb : b = a
      · subst hb; simp [set, hc]
      · simp [set, hb]
    · funext b
      by_cases hb : b = a
      · subst hb; simp [h'.1]
      · simp [hb]
    · funext b
      by_cases hb : b = a
      · subst hb; simp [h'.2]
      · simp [hb]
  · rename_i hc
    obtain ⟨h1, h2, h3⟩ := h.resolve_left fun h => hc h.1
    obtain ⟨k, hk⟩ := Option.isSome_iff_exists.1 h2
    obtain ⟨l, hl⟩ := Option.isSome_iff_exists.1 h3
    rw [Entry.into, hdate]
    simp only [restr, Store.mk.injEq, true_and]
    refine ⟨?_, ?_, ?_, trivial⟩
    · funext b
      by_cases hb : b = a
      · subst hb; simp [h1]
      · simp [hb]
    · funext b
      by_cases hb : b = a
      · subst hb; simp [set, hk]
      · simp [set, hb]
    · funext b
      by_cases hb : b = a
      · subst hb; simp [set, hl]
      · simp [set, hb]

theorem foldl_restr {s : Store} (hf : Fits s) (hs : Shape s) : ∀ (l pre : List Bytes), (∀ a ∈ l, a ∈ s.aliases) →
    (l.map (entryOf s)).foldl Entry.into (restr s pre) = restr s (pre ++ l)
  | [], pre, _ => by simp
  | a :: l, pre, h => by
    rw [List.map_cons, List.foldl_cons, into_restr hf hs pre (h a (by simp)), foldl_restr hf hs l (pre ++ [a]) (fun b hb => h b (by simp [hb])), List.append_assoc]
    rfl

/-- A saved store. -/
def Store.toMs (s : Store) : Store := { s with dates := fun a => (s.dates a).map Jks.toMs }

theorem restr_all {s : Store} (hs : Shape s) : restr s s.aliases = s.toMs := by
  rw [restr, Store.toMs]
  simp only [Store.mk.injEq, true_and]
  refine ⟨?_, ?_, ?_, ?_⟩ <;> funext a <;> by_cases ha : a ∈ s.aliases <;> simp [ha, hs.of_not_mem a]

theorem load_marshal {S : Sha1} {s : Store} (hf : Fits s) (hs : Shape s) (password : Bytes) : load S (marshal S s password) password = .ok s.toMs := by
  rw [load, C125_parse_iff]
  refine ⟨s.aliases.length, s.aliases.map (entryOf s), [], by have := hf.count; omega, ?_, ?_, by rw [List.append_nil, marshal_eq], ?_⟩
  · rw [signed32, if_pos hf.count, List.length_map, Int.toNat_natCast]
  · intro e he
    obtain ⟨a, ha, rfl⟩ := List.mem_map.1 he
    exact entryOf_valid hf hs ha
  · have := foldl_restr hf hs s.aliases [] (fun a h => h)
    rw [List.nil_append, restr_all hs] at this
    rw [← this]
    congr 1

/-- Loading what was saved gives back the store, with dates in milliseconds: for every history of calls and every password, as long as
everything fits the fields of the format. -/
theorem C125_roundtrip (S : Sha1) (A : Asn1) (ops : List Op) (hok : ∀ op ∈ ops, op.Ok) (hf : Fits (run S A ops)) (password : Bytes) :
    load S (marshal S (run S A ops) password) password = .ok (run S A ops).toMs :=
  load_marshal hf (shape_of_holds (run_holds S A ops hok)) password

/-- Hence the getters of the loaded store return what the calls put into the saved one. -/
theorem C125_saved (S : Sha1) (A : Asn1) (ops : List Op) (hok : ∀ op ∈ ops, op.Ok) (hf : Fits (run S A ops)) (password : Bytes) :
    ∃ s, load S (marshal S (run S A ops) password) password = .ok s ∧ ∀ al, Shows S A s al ((content ops al).map fun x => (x.1, toMs x.2)) := by
  refine ⟨_, C125_roundtrip S A ops hok hf password, fun al => shows_of_holds ?_⟩
  have := run_holds S A ops hok al
  cases hc : content ops al with
  | none => rw [hc] at this; simpa [Holds, Store.toMs] using this
  | some x =>
    obtain ⟨x, t⟩ := x
    rw [hc] at this
    cases x with
    | key k pw chain =>
      obtain ⟨h1, h2, h3, h4, h5⟩ := this
      exact ⟨h1, h2, h3, by simp [Store.toMs, h4], h5⟩
    | enc e chain =>
      obtain ⟨h1, h2, h3, h4, h5⟩ := this
      exact ⟨h1, h2, h3, by simp [Store.toMs, h4], h5⟩
    | cert c =>
      obtain ⟨h1, h2, h3, h4, h5⟩ := this
      exact ⟨h1, h2, h3, by simp [Store.toMs, h4], h5⟩

/-- With another password a saved store is loaded exactly if the two passwords give the same hash of the body. -/
theorem C125_password (S : Sha1) (A : Asn1) (ops : List Op) (hok : ∀ op ∈ ops, op.Ok) (hf : Fits (run S A ops)) (password password' : Bytes) :
    ∃ b, marshal S (run S A ops) password = b ++ digest S.h.f password b ∧
      ((∃ s, load S (marshal S (run S A ops) password) password' = .ok s) ↔ digest S.h.f password' b = digest S.h.f password b) := by
  refine ⟨_, marshal_eq .., ?_⟩
  have hs := shape_of_holds (run_holds S A ops hok)
  generalize run S A ops = s at hf hs
  have hb : parseBody newJKS (marshal S s password) = .ok (s.toMs, digest S.h.f password (body s.aliases.length (s.aliases.map (entryOf s)))) := by
    rw [parseBody_ok]
    refine ⟨s.aliases.length, s.aliases.map (entryOf s), by have := hf.count; omega, ?_, ?_, ?_, marshal_eq ..⟩
    · rw [signed32, if_pos hf.count, List.length_map, Int.toNat_natCast]
    · intro e he
      obtain ⟨a, ha, rfl⟩ := List.mem_map.1 he
      exact entryOf_valid hf hs ha
    · have := foldl_restr hf hs s.aliases [] (fun a h => h)
      rw [List.nil_append, restr_all hs] at this
      rw [← this]
      congr 1
  rw [load, parse, hb]
  simp only [Res.bind]
  have hr : rdFull 20 (digest S.h.f password (body s.aliases.length (s.aliases.map (entryOf s)))) =
      .ok (digest S.h.f password (body s.aliases.length (s.aliases.map (entryOf s))), []) :=
    (rdFull_ok ..).2 ⟨by rw [digest, S.h.len, S.size], by simp⟩
  rw [hr]
  simp only
  rw [marshal_eq, List.length_append, Nat.add_sub_cancel, List.take_left, keyedHash_eq]
  constructor
  · rintro ⟨s', h⟩
    split at h
    · assumption
    · cases h
  · intro h
    exact ⟨s.toMs, if_pos h⟩

/-- A name of 65536 bytes, of which the first ten are zero, is saved with the length 0: no error is reported, but the file cannot be loaded again. -/
theorem C125_long_name_violated (S : Sha1) (A : Asn1) (password cert z al : Bytes) (hc : cert ≠ []) (now : Int) (hl : al.length = 65536)
    (hz : al = List.replicate 10 0#8 ++ z) :
    getCert (run S A [.cert al cert now]) al = .ok cert ∧ load S (marshal S (run S A [.cert al cert now]) password) password = .err := by
  replace hz : al = hx 8 0 ++ (str16 [] ++ z) := by rw [hz]; rfl
  have hr : run S A [.cert al cert now] = ⟨[al], set (fun _ => none) al cert, fun _ => none, fun _ => none, set (fun _ => none) al now⟩ := by
    simp [run, step, addCert, newJKS, hc, touch]
  rw [hr]
  refine ⟨by simp [getCert, look, set], ?_⟩
  have hb : ∀ t, parseBody newJKS (hx 4 0xFEEDFEED ++ (hx 4 2 ++ (hx 4 1 ++ (hx 4 2 ++ (str16 [] ++ (hx 8 0 ++ (str16 [] ++ t))))))) = .err := by
    intro t
    rw [parseBody, Rd.bind_of_ok ((rdNat_ok 4 _ _ _).2 ⟨by decide, rfl⟩), if_neg (by simp), Rd.bind_of_ok ((rdNat_ok 4 _ _ _).2 ⟨by decide, rfl⟩), if_neg (by simp), readInt32,
      Rd.bind_of_ok ((rdNat_ok 4 _ _ 1).2 ⟨by decide, rfl⟩), show (signed32 1).toNat = 0 + 1 from rfl, parseEntries, readInt32,
      Rd.bind_of_ok ((rdNat_ok 4 _ _ 2).2 ⟨by decide, rfl⟩), if_neg (by decide), if_pos rfl, Rd.bind, parseTrustedCert,
      Rd.bind_of_ok ((readUTF_ok' _ [] _).2 ⟨by decide, rfl⟩), Rd.bind_of_ok ((readDate_ok _ _ _).2 ⟨0, by decide, rfl, rfl⟩),
      Rd.bind_of_ok ((readUTF_ok' _ [] _).2 ⟨by decide, rfl⟩), if_pos (by decide)]
    rfl
  have hm : ∃ t, marshal S ⟨[al], set (fun _ => none) al cert, fun _ => none, fun _ => none, set (fun _ => none) al now⟩ password =
      hx 4 0xFEEDFEED ++ (hx 4 2 ++ (hx 4 1 ++ (hx 4 2 ++ (str16 [] ++ (hx 8 0 ++ (str16 [] ++ t)))))) := by
    have e : str16 al = str16 [] ++ (hx 8 0 ++ (str16 [] ++ z)) := by
      have e1 : hx 2 65536 = str16 [] := by decide
      rw [← hz, str16, hl, e1]
    rw [marshal_eq, body, entryOf_one, Entry.enc, e]
    simp only [List.append_assoc, List.length_cons, List.length_nil, Nat.zero_add]
    exact ⟨_, rfl⟩
  obtain ⟨t, ht⟩ := hm
  rw [ht, load, parse, hb]
  rfl

/-- The hypotheses are met: a certificate and a key under two names, with dates of 2023. -/
example (S : Sha1) (A : Asn1) : ∃ ops : List Op, ops.length = 2 ∧ (∀ op ∈ ops, op.Ok) ∧ content ops [0x61#8] = some (.cert [1#8, 2#8], 1700000000123456789) := by
  refine ⟨[.key [0x62#8] [5#8] [0x70#8] [[7#8]] (List.replicate 20 3#8) 1700000001000000000, .cert [0x61#8] [1#8, 2#8] 1700000000123456789], rfl, ?_, rfl⟩
  intro op h
  simp only [List.mem_cons, List.not_mem_nil, or_false] at h
  rcases h with rfl | rfl
  · exact List.length_replicate
  · trivial

/-- The conditions on sizes are met too. -/
example (S : Sha1) (A : Asn1) : Fits (run S A [.cert [0x61#8] [1#8, 2#8] 1700000000123456789]) := by
  have hr : run S A [.cert [0x61#8] [1#8, 2#8] 1700000000123456789] =
      ⟨[[0x61#8]], set (fun _ => none) [0x61#8] [1#8, 2#8], fun _ => none, fun _ => none, set (fun _ => none) [0x61#8] 1700000000123456789⟩ := by
    simp [run, step, addCert, newJKS, touch]
  rw [hr]
  refine ⟨by decide, by simp, ?_, by simp, by simp, ?_⟩
  · intro a c h; simp only [set] at h; split at h
    · cases h; decide
    · cases h
  · intro a c h; simp only [set] at h; split at h
    · cases h; decide
    · cases h

end Verif.Jks
