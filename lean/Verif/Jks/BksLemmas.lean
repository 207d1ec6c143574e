import Verif.Jks.BksSpec
/-
Lemmas for C127 and C128.
-/
namespace Verif.Jks
open Verif.Cipher Verif.Pub Verif.Kdf Verif.Mode Verif.Facade Verif.Padding Spec

theorem bksFormatPassword_eq (U : Bytes → Bytes) (pw : Bytes) : bksFormatPassword U pw = BSpec.password U pw := by
  rw [bksFormatPassword, BSpec.password]
  cases pw <;> rfl

theorem p12key_ok (S : Sha1) (salt pw : Bytes) (r : Int) (ID : Byte) (n : Nat) :
    ∃ k, P12.key S.h 20 64 salt pw r ID n = .ok k ∧ k.length = n := by
  obtain ⟨k, _, h, _, hl, _⟩ := C85_pkcs12_prefix S.h 64 (by decide) salt pw r ID n n (Nat.le_refl _)
  rw [S.size] at h
  exact ⟨k, h, hl⟩

theorem hmacKeyLen_eq {version : Nat} (h : version = 1 ∨ version = 2) : hmacKeyLen version = BSpec.macLen version := by
  rcases h with rfl | rfl <;> rfl

theorem derivedHmacKey_eq (S : Sha1) (U : Bytes → Bytes) (pw salt : Bytes) (r : Int) (n : Nat) :
    derivedHmacKey S U pw salt r n = .ok (BSpec.macKey S U pw salt (max r.toNat 1) n) := by
  have h := P12.key_eq S.h 64 (by decide) salt (BSpec.password U pw) r 3 n
  rw [S.size] at h
  rw [derivedHmacKey, bksFormatPassword_eq, h, BSpec.macKey]
  have : r.toNat - 1 + 1 = max r.toNat 1 := by omega
  rw [this]

theorem derivedKey12_ok (S : Sha1) (U : Bytes → Bytes) (pw salt : Bytes) (iter : Int) (keyLen ivLen : Nat) :
    ∃ key iv, derivedKeyWithPbkdf S U pw salt iter keyLen ivLen = .ok (key, iv) ∧ key.length = keyLen ∧ iv.length = ivLen := by
  obtain ⟨k, h1, h2⟩ := p12key_ok S salt (bksFormatPassword U pw) iter 1 keyLen
  obtain ⟨v, h3, h4⟩ := p12key_ok S salt (bksFormatPassword U pw) iter 2 ivLen
  exact ⟨k, v, by rw [derivedKeyWithPbkdf, h1, Res.bind, h3, Res.bind], h2, h4⟩

theorem p12_roundtrip (S : Sha1) (U : Bytes → Bytes) (n : Nat) (h1 : 1 ≤ n) (h2 : n ≤ 255) (C : Bc n) (keyLen : Nat) (pw salt : Bytes) (iter : Int) (data : Bytes) :
    ∃ ct, p12Encrypt S U n C keyLen pw salt iter data = .ok ct ∧ p12Decrypt S U n C keyLen pw salt iter ct = .ok data ∧ ct.length ≤ data.length + n ∧ 0 < ct.length := by
  obtain ⟨key, iv, hd, -, hiv⟩ := derivedKey12_ok S U pw salt iter keyLen n
  obtain ⟨hrt, hp1, hp2⟩ := C01_pkcs7_roundtrip data n h1 h2
  have hbs := C.bs key
  have hl : (blkRun n (cbcEncF (C.bc key)) iv (pkcs7Pad data n)).1.length = (pkcs7Pad data n).length := by
    refine blkRun_length n (by omega) _ (fun v => v.length = n) ?_ _ hp1 iv hiv
    intro t b ht hb
    have := cbcEncF_len (C.bc key) t b (by omega) (by omega)
    rwa [hbs] at this
  have hpl : (pkcs7Pad data n).length = data.length + (n - data.length % n) := by
    rw [pkcs7Pad, if_neg (by omega)]
    simp [padSize]
  have hm := Nat.mod_lt data.length h1
  refine ⟨_, by rw [p12Encrypt, hd, Res.bind], ?_, by rw [hl, hpl]; omega, by rw [hl, hpl]; omega⟩
  rw [p12Decrypt, hd, Res.bind]
  simp only
  have hmod : (pkcs7Pad data n).length % n = 0 := Nat.mod_eq_zero_of_dvd hp1
  rw [hl, if_neg (by rw [hmod, hpl]; omega)]
  have := cbc_roundtrip (C.bc key) (pkcs7Pad data n) iv (by rw [hbs]; exact hp1) (by omega)
  rw [hbs] at this
  rw [this]
  exact hrt

/-! ### Readers -/

theorem readKey_ok (s t : Bytes) (k : BKey) : readKey s = .ok (k, t) ↔
    k.keyType < 2 ^ 8 ∧ k.format.length < 2 ^ 16 ∧ k.algorithm.length < 2 ^ 16 ∧ k.encoded.length < 2 ^ 31 ∧ s = BSpec.keyEnc k.keyType k.format k.algorithm k.encoded ++ t := by
  rw [readKey]
  simp only [Rd.bind_ok, readUTF_ok', readBytes_ok', rdNat_ok, Rd.ret_ok]
  constructor
  · rintro ⟨ty, u1, ⟨h1, h2⟩, f, u2, ⟨h3, h4⟩, a, u3, ⟨h5, h6⟩, e, u4, ⟨h7, h8⟩, rfl, rfl⟩
    refine ⟨h1, h3, h5, h7, ?_⟩
    rw [h2, h4, h6, h8, BSpec.keyEnc]
    simp only [List.append_assoc]
  · rintro ⟨h1, h2, h3, h4, h5⟩
    refine ⟨k.keyType, _, ⟨h1, ?_⟩, k.format, _, ⟨h2, rfl⟩, k.algorithm, _, ⟨h3, rfl⟩, k.encoded, t, ⟨h4, rfl⟩, rfl, rfl⟩
    rw [h5, BSpec.keyEnc]
    simp only [List.append_assoc]

/-- the octets of a chain -/
def bChainEnc (l : List (Bytes × Bytes)) : Bytes := (l.map fun c => str16 c.1 ++ str32 c.2).flatten

theorem bReadChain_ok : ∀ (n : Nat) (s t : Bytes) (l : List Bytes), bReadChain n s = .ok (l, t) ↔
    ∃ c : List (Bytes × Bytes), c.length = n ∧ (∀ x ∈ c, x.1.length < 2 ^ 16 ∧ x.2.length < 2 ^ 31) ∧ l = c.map Prod.snd ∧ s = bChainEnc c ++ t
  | 0, s, t, l => by
    rw [bReadChain, Rd.ret_ok]
    constructor
    · rintro ⟨rfl, rfl⟩; exact ⟨[], rfl, by simp, rfl, rfl⟩
    · rintro ⟨c, h1, -, h2, h3⟩
      obtain rfl := List.length_eq_zero_iff.1 h1
      exact ⟨h2.symm, h3⟩
  | n + 1, s, t, l => by
    rw [bReadChain]
    simp only [Rd.bind_ok, readUTF_ok', readBytes_ok', bReadChain_ok n, Rd.ret_ok]
    constructor
    · rintro ⟨ty, u1, ⟨h1, h2⟩, x, u2, ⟨h3, h4⟩, l', u3, ⟨c, h5, h6, rfl, h8⟩, rfl, rfl⟩
      refine ⟨(ty, x) :: c, by simp [h5], ?_, rfl, ?_⟩
      · intro y hy
        rcases List.mem_cons.1 hy with rfl | hy
        · exact ⟨h1, h3⟩
        · exact h6 y hy
      · rw [h2, h4, h8]; simp [bChainEnc]
    · rintro ⟨c, h1, h2, rfl, h4⟩
      cases c with
      | nil => cases h1
      | cons x c =>
        have hx1 := h2 x (by simp)
        refine ⟨x.1, str32 x.2 ++ (bChainEnc c ++ t), ⟨hx1.1, ?_⟩, x.2, _, ⟨hx1.2, rfl⟩, c.map Prod.snd, t, ⟨c, by simpa using h1, fun y hy => h2 y (by simp [hy]), rfl, rfl⟩, rfl, rfl⟩
        rw [h4]; simp [bChainEnc]

theorem bReadEnt_ok (tag : Nat) (s t : Bytes) (e : BEnt) : bReadEnt tag s = .ok (e, t) ↔
    ∃ d : BSpec.Data, d.tag = tag ∧ d.Valid ∧ e = d.toEnt ∧ s = d.enc ++ t := by
  rw [bReadEnt]
  split
  · rename_i h
    subst h
    simp only [Rd.bind_ok, readUTF_ok', readBytes_ok', Rd.ret_ok]
    constructor
    · rintro ⟨ty, u1, ⟨h1, h2⟩, c, u2, ⟨h3, h4⟩, rfl, rfl⟩
      exact ⟨.cert ty c, rfl, ⟨h1, h3⟩, rfl, by rw [h2, h4, BSpec.Data.enc, List.append_assoc]⟩
    · rintro ⟨d, h1, h2, rfl, h4⟩
      cases d <;> first | cases h1 | skip
      rename_i ty c
      rw [BSpec.Data.enc, List.append_assoc] at h4
      exact ⟨ty, _, ⟨h2.1, h4⟩, c, t, ⟨h2.2, rfl⟩, rfl, rfl⟩
  split
  · rename_i _ h
    subst h
    simp only [Rd.bind_ok, readKey_ok, Rd.ret_ok]
    constructor
    · rintro ⟨k, u, ⟨h1, h2, h3, h4, h5⟩, rfl, rfl⟩
      exact ⟨.key k.keyType k.format k.algorithm k.encoded, rfl, ⟨h1, h2, h3, h4⟩, rfl, h5⟩
    · rintro ⟨d, h1, h2, rfl, h4⟩
      cases d <;> first | cases h1 | skip
      rename_i ty f a x
      exact ⟨⟨ty, f, a, x⟩, t, ⟨h2.1, h2.2.1, h2.2.2.1, h2.2.2.2, h4⟩, rfl, rfl⟩
  split
  · rename_i _ _ h
    subst h
    simp only [Rd.bind_ok, readBytes_ok', Rd.ret_ok]
    constructor
    · rintro ⟨x, u, ⟨h1, h2⟩, rfl, rfl⟩
      exact ⟨.secret x, rfl, h1, rfl, h2⟩
    · rintro ⟨d, h1, h2, rfl, h4⟩
      cases d <;> first | cases h1 | skip
      rename_i x
      exact ⟨x, t, ⟨h2, h4⟩, rfl, rfl⟩
  split
  · rename_i _ _ _ h
    subst h
    simp only [Rd.bind_ok, readBytes_ok', Rd.ret_ok]
    constructor
    · rintro ⟨x, u, ⟨h1, h2⟩, rfl, rfl⟩
      exact ⟨.sealedKey x, rfl, h1, rfl, h2⟩
    · rintro ⟨d, h1, h2, rfl, h4⟩
      cases d <;> first | cases h1 | skip
      rename_i x
      exact ⟨x, t, ⟨h2, h4⟩, rfl, rfl⟩
  · rename_i h1 h2 h3 h4
    constructor
    · intro h; cases h
    · rintro ⟨d, h5, -⟩
      cases d <;> simp [BSpec.Data.tag] at h5 <;> omega

/-- putting entries into a store -/
def bInto (s : BStore) (es : List BSpec.Entry) : BStore := es.foldl (fun s e => set s e.al e.toItem) s

theorem tag_pos (d : BSpec.Data) : 0 < d.tag ∧ d.tag < 256 := by cases d <;> simp [BSpec.Data.tag]

theorem bLoadEntries_ok : ∀ (fuel : Nat) (s0 s1 : BStore) (s t : Bytes), bLoadEntries fuel s0 s = .ok (s1, t) ↔
    ∃ es : List BSpec.Entry, es.length < fuel ∧ (∀ e ∈ es, e.Valid) ∧ (es.map BSpec.Entry.al).Nodup ∧ (∀ e ∈ es, s0 e.al = none) ∧ s1 = bInto s0 es ∧ s = BSpec.body es ++ t
  | 0, s0, s1, s, t => by simp [bLoadEntries]
  | fuel + 1, s0, s1, s, t => by
    rw [bLoadEntries]
    simp only [Rd.bind_ok, rdNat_ok]
    constructor
    · rintro ⟨tag, u, ⟨h1, h2⟩, h3⟩
      split at h3
      · rename_i h
        subst h
        obtain ⟨rfl, rfl⟩ := (Rd.ret_ok ..).1 h3
        exact ⟨[], by simp, by simp, by simp, by simp, rfl, by rw [h2]; rfl⟩
      · simp only [Rd.bind_ok, readUTF_ok', readDate_ok, readInt32, rdNat_ok, bReadChain_ok, bReadEnt_ok, ite_fail, bLoadEntries_ok fuel] at h3
        obtain ⟨al, u1, ⟨g1, g2⟩, d, u2, ⟨ms, g3, rfl, g5⟩, n, u3, ⟨g6, g7⟩, l, u4, ⟨c, g8, g9, rfl, g11⟩, ent, u5, ⟨dd, g12, g13, rfl, g15⟩, g16, es, k1, k2, k3, k4, k5, k6⟩ := h3
        have kal : ∀ e ∈ es, e.al ≠ al ∧ s0 e.al = none := by
          intro e he
          have := k4 e he
          rw [set] at this
          split at this
          · cases this
          · rename_i hh; exact ⟨hh, this⟩
        refine ⟨⟨al, ms, c, n, dd⟩ :: es, by simp [k1], ?_, ?_, ?_, by rw [k5]; rfl, ?_⟩
        · intro e he
          rcases List.mem_cons.1 he with rfl | he
          · exact ⟨g1, g3, g6, g8, g9, g13⟩
          · exact k2 e he
        · rw [List.map_cons, List.nodup_cons]
          refine ⟨?_, k3⟩
          intro hh
          obtain ⟨e, he, hee⟩ := List.mem_map.1 hh
          exact (kal e he).1 hee
        · intro e he
          rcases List.mem_cons.1 he with rfl | he
          · exact g16
          · exact (kal e he).2
        · rw [h2, g2, g5, g7, g11, g15, k6, ← g12, BSpec.body, BSpec.body, List.map_cons, List.flatten_cons, BSpec.Entry.enc, bChainEnc]
          simp only [List.append_assoc]
    · rintro ⟨es, h1, h2, h3, h4, h5, h6⟩
      cases es with
      | nil =>
        refine ⟨0, t, ⟨by decide, h6⟩, ?_⟩
        rw [if_pos rfl, h5]
        rfl
      | cons e es =>
        rw [List.map_cons, List.nodup_cons] at h3
        have hv := h2 e (by simp)
        have ht := tag_pos e.data
        refine ⟨e.data.tag, str16 e.al ++ (hx 8 e.ms ++ (hx 4 e.count ++ (bChainEnc e.chain ++ (e.data.enc ++ (BSpec.body es ++ t))))), ⟨ht.2, ?_⟩, ?_⟩
        · rw [h6, BSpec.body, BSpec.body, List.map_cons, List.flatten_cons, BSpec.Entry.enc, bChainEnc]
          simp only [List.append_assoc]
        rw [if_neg (by omega)]
        simp only [Rd.bind_ok, readUTF_ok', readDate_ok, readInt32, rdNat_ok, bReadChain_ok, bReadEnt_ok, ite_fail, bLoadEntries_ok fuel]
        refine ⟨e.al, _, ⟨hv.al, rfl⟩, _, _, ⟨e.ms, hv.ms, rfl, rfl⟩, e.count, _, ⟨hv.count, rfl⟩, _, _, ⟨e.chain, hv.len, hv.chain, rfl, rfl⟩, _, _, ⟨e.data, rfl, hv.data, rfl, rfl⟩, h4 e (by simp), es, ?_, ?_, h3.2, ?_, h5, rfl⟩
        · simp at h1; exact h1
        · exact fun x hx1 => h2 x (by simp [hx1])
        · intro x hx1
          rw [set_other, h4 x (by simp [hx1])]
          intro hh
          exact h3.1 (by rw [← hh]; exact List.mem_map_of_mem hx1)

theorem bInto_apply : ∀ (es : List BSpec.Entry) (s : BStore), (es.map BSpec.Entry.al).Nodup → ∀ a,
    bInto s es a = match es.find? (fun e => e.al == a) with
      | some e => some e.toItem
      | none => s a
  | [], s, _, a => rfl
  | e :: es, s, hn, a => by
    rw [List.map_cons, List.nodup_cons] at hn
    have : bInto s (e :: es) = bInto (set s e.al e.toItem) es := rfl
    rw [this, bInto_apply es _ hn.2, List.find?_cons]
    by_cases hxa : e.al = a
    · subst hxa
      have : es.find? (fun y => y.al == e.al) = none := by
        rw [List.find?_eq_none]
        intro y hy hh
        simp only [beq_iff_eq] at hh
        exact hn.1 (by rw [← hh]; exact List.mem_map_of_mem hy)
      rw [this]
      simp [set]
    · have : (e.al == a) = false := by simp [hxa]
      rw [this]
      simp only
      cases es.find? (fun y => y.al == a) with
      | none => exact set_other _ _ _ _ (Ne.symm hxa)
      | some y => rfl

theorem bInto_new {es : List BSpec.Entry} (h : (es.map BSpec.Entry.al).Nodup) : bInto newBKS es = BSpec.store es := by
  funext a
  rw [bInto_apply es _ h, BSpec.store]
  cases es.find? (fun e => e.al == a) <;> rfl

theorem body_len (es : List BSpec.Entry) : es.length < (BSpec.body es).length := by
  induction es with
  | nil => decide
  | cons e es ih =>
    rw [BSpec.body] at ih ⊢
    simp only [List.length_append, List.map_cons, List.flatten_cons, BSpec.Entry.enc, hx_length, List.length_cons] at ih ⊢
    omega

/-- Loading into a new store with enough fuel. -/
theorem bLoadEntries_new (s t : Bytes) (s1 : BStore) : bLoadEntries (s.length + 1) newBKS s = .ok (s1, t) ↔
    ∃ es : List BSpec.Entry, (∀ e ∈ es, e.Valid) ∧ (es.map BSpec.Entry.al).Nodup ∧ s1 = BSpec.store es ∧ s = BSpec.body es ++ t := by
  rw [bLoadEntries_ok]
  constructor
  · rintro ⟨es, -, h2, h3, -, h5, h6⟩
    exact ⟨es, h2, h3, by rw [h5, bInto_new h3], h6⟩
  · rintro ⟨es, h2, h3, h5, h6⟩
    refine ⟨es, ?_, h2, h3, fun _ _ => rfl, by rw [h5, bInto_new h3], h6⟩
    have := body_len es
    rw [h6, List.length_append]
    omega

end Verif.Jks
