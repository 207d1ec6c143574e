import Verif.Jks.JksSpec
/-
Helper lemmas for C125.
-/
namespace Verif.Jks
open Verif.Cipher Verif.Pub Verif.Kdf Spec

theorem charsToBytes_eq (p : Bytes) : charsToBytes p = utf16 p := by
  induction p with
  | nil => rfl
  | cons b p ih =>
    rw [charsToBytes, ih, utf16, utf16, List.map_cons, List.flatten_cons]
    have : b >>> 8 = 0#8 := by
      apply BitVec.eq_of_toNat_eq
      rw [BitVec.toNat_ushiftRight, Nat.shiftRight_eq_div_pow, Nat.div_eq_of_lt b.isLt]; rfl
    rw [this]
    rfl

theorem block_length (S : Sha1) (pw salt : Bytes) (hs : salt.length = 20) (i : Nat) : (block S.h.f pw salt i).length = 20 := by
  cases i with
  | zero => exact hs
  | succ i => rw [block, S.h.len, S.size]

theorem keyLoop_eq (S : Sha1) (pw salt : Bytes) (hs : salt.length = 20) : ∀ (n : Nat) (src : Bytes), src.length = n → ∀ i,
    keyLoop S pw (block S.h.f pw salt i) src = src.mapIdx (fun j b => b ^^^ (block S.h.f pw salt (i + j / 20 + 1)).getD (j % 20) 0#8) := by
  intro n
  induction n using Nat.strongRecOn with
  | ind n ih =>
    intro src hn i
    rw [keyLoop]
    split
    · rename_i h
      rw [List.length_eq_zero_iff.1 h]; rfl
    · rename_i h
      have hb := block_length S pw salt hs i
      have hb1 := block_length S pw salt hs (i + 1)
      have e : (S.h.f (pw ++ block S.h.f pw salt i)).take (block S.h.f pw salt i).length = block S.h.f pw salt (i + 1) := by
        rw [block, List.take_of_length_le]
        rw [S.h.len, S.size, hb]
      simp only [e]
      rw [hb1, show max 1 20 = 20 from rfl, ih (src.drop 20).length (by rw [List.length_drop]; omega) (src.drop 20) rfl (i + 1)]
      apply List.ext_getElem
      · simp only [List.length_append, xorb_length, List.length_mapIdx, List.length_drop, hb1]; omega
      · intro j h1 h2
        simp only [List.length_mapIdx] at h2
        rw [List.getElem_mapIdx]
        by_cases hj : j < 20
        · rw [List.getElem_append_left (by rw [xorb_length, hb1]; omega), xorb_getElem, BitVec.xor_comm, show i + j / 20 + 1 = i + 1 by omega,
            Nat.mod_eq_of_lt hj, List.getD_eq_getElem?_getD, List.getElem?_eq_getElem (by omega), Option.getD_some]
        · by_cases hl : src.length ≤ 20
          · omega
          have hx1 : (xorb (block S.h.f pw salt (i + 1)) src).length = 20 := by rw [xorb_length, hb1]; omega
          rw [List.getElem_append_right (by omega), List.getElem_mapIdx, List.getElem_drop]
          simp only [hx1]
          rw [show i + 1 + (j - 20) / 20 + 1 = i + j / 20 + 1 by omega, show (j - 20) % 20 = j % 20 by omega]
          congr 1
          congr 1
          omega

theorem keyLoop_spec (S : Sha1) (pw salt src : Bytes) (hs : salt.length = 20) :
    keyLoop S pw salt src = src.mapIdx (fun j b => b ^^^ streamByte S.h.f pw salt j) := by
  have := keyLoop_eq S pw salt hs src.length src rfl 0
  rw [block] at this
  rw [this]
  simp only [streamByte, Nat.zero_add]

theorem keyLoop_length (S : Sha1) (pw salt src : Bytes) (hs : salt.length = 20) : (keyLoop S pw salt src).length = src.length := by
  rw [keyLoop_spec S pw salt src hs, List.length_mapIdx]

theorem keyLoop_invol (S : Sha1) (pw salt src : Bytes) (hs : salt.length = 20) : keyLoop S pw salt (keyLoop S pw salt src) = src := by
  rw [keyLoop_spec S pw salt _ hs, keyLoop_spec S pw salt _ hs]
  apply List.ext_getElem
  · simp
  · intro j h1 h2
    simp

theorem protect_eq (S : Sha1) (pw salt key : Bytes) (hs : salt.length = 20) :
    protect S.h.f pw salt key = salt ++ keyLoop S pw salt key ++ S.h.f (pw ++ key) := by
  rw [protect, keyLoop_spec S pw salt key hs]

/-! ### Parsing -/

theorem x509_eq : x509 = certType := rfl
theorem writeUTF_eq (v : Bytes) : writeUTF v = str16 v := rfl
theorem writeBytes_eq (v : Bytes) : writeBytes v = str32 v := rfl

theorem readUTF_ok' (s a t : Bytes) : readUTF s = .ok (a, t) ↔ a.length < 65536 ∧ s = str16 a ++ t := readUTF_ok s a t
theorem readBytes_ok' (s a t : Bytes) : readBytes s = .ok (a, t) ↔ a.length < 2 ^ 31 ∧ s = str32 a ++ t := readBytes_ok s a t

theorem ite_fail {α : Type} {c : Prop} [Decidable c] (r : Rd α) (s : Bytes) (x : α × Bytes) :
    (if ¬c then Rd.fail else r) s = .ok x ↔ c ∧ r s = .ok x := by
  by_cases h : c <;> simp [h, Rd.fail]

/-- the certificates of a chain -/
def chainEnc (l : List Bytes) : Bytes := (l.map fun c => str16 x509 ++ str32 c).flatten

theorem writeChain_eq (l : List Bytes) : writeChain l = chainEnc l := rfl

theorem readChain_ok : ∀ (n : Nat) (s t : Bytes) (l : List Bytes),
    readChain n s = .ok (l, t) ↔ l.length = n ∧ (∀ c ∈ l, c.length < 2 ^ 31) ∧ s = chainEnc l ++ t
  | 0, s, t, l => by
    rw [readChain, Rd.ret_ok]
    constructor
    · rintro ⟨rfl, rfl⟩; exact ⟨rfl, by simp, rfl⟩
    · rintro ⟨h1, -, h2⟩
      obtain rfl := List.length_eq_zero_iff.1 h1
      exact ⟨rfl, h2⟩
  | n + 1, s, t, l => by
    rw [readChain, Rd.bind_ok]
    simp only [ne_eq, ite_fail, readUTF_ok', Rd.bind_ok, readBytes_ok', readChain_ok n, Rd.ret_ok]
    constructor
    · rintro ⟨ty, u, ⟨h1, h2⟩, h3, c, v, ⟨h4, h5⟩, l', w, ⟨h6, h7, h8⟩, rfl, rfl⟩
      refine ⟨by simp [h6], ?_, ?_⟩
      · intro x hx1
        rcases List.mem_cons.1 hx1 with rfl | hx1
        · exact h4
        · exact h7 x hx1
      · rw [h2, h5, h8, h3]
        simp [chainEnc, x509_eq]
    · rintro ⟨h1, h2, h3⟩
      cases l with
      | nil => cases h1
      | cons c l =>
        refine ⟨certType, str32 c ++ (chainEnc l ++ t), ⟨by decide, ?_⟩, rfl, c, chainEnc l ++ t, ⟨h2 c (by simp), rfl⟩, l, t,
          ⟨by simpa using h1, fun x hx1 => h2 x (by simp [hx1]), rfl⟩, rfl, rfl⟩
        rw [h3, chainEnc, List.map_cons, List.flatten_cons]
        simp only [List.append_assoc]
        rfl

theorem parsePrivateKey_ok (s0 s1 : Store) (s t : Bytes) : parsePrivateKey s0 s = .ok (s1, t) ↔
    ∃ a ms k chain n, (Entry.key a ms k chain n).Valid ∧ s1 = (Entry.key a ms k chain n).into s0 ∧
      hx 4 1 ++ s = (Entry.key a ms k chain n).enc ++ t := by
  rw [parsePrivateKey]
  simp only [Rd.bind_ok, readUTF_ok', readDate_ok, readBytes_ok', readInt32, rdNat_ok, readChain_ok, Rd.ret_ok]
  constructor
  · rintro ⟨a, u1, ⟨h1, h2⟩, d, u2, ⟨ms, h3, h4, h5⟩, k, u3, ⟨h6, h7⟩, n, u4, ⟨h8, h9⟩, chain, u5, ⟨h10, h11, h12⟩, rfl, rfl⟩
    refine ⟨a, ms, k, chain, n, ⟨h1, h3, h6, h11, h8, h10⟩, by rw [h4]; rfl, ?_⟩
    rw [h2, h5, h7, h9, h12, Entry.enc]
    simp only [List.append_assoc]
    rfl
  · rintro ⟨a, ms, k, chain, n, ⟨h1, h2, h3, h4, h5, h6⟩, rfl, h8⟩
    refine ⟨a, _, ⟨h1, ?_⟩, _, _, ⟨ms, h2, rfl, rfl⟩, k, _, ⟨h3, rfl⟩, n, _, ⟨h5, rfl⟩, chain, t, ⟨h6, h4, rfl⟩, rfl, rfl⟩
    rw [Entry.enc] at h8
    simp only [List.append_assoc] at h8
    exact List.append_cancel_left h8

theorem parseTrustedCert_ok (s0 s1 : Store) (s t : Bytes) : parseTrustedCert s0 s = .ok (s1, t) ↔
    ∃ a ms c, (Entry.cert a ms c).Valid ∧ s1 = (Entry.cert a ms c).into s0 ∧ hx 4 2 ++ s = (Entry.cert a ms c).enc ++ t := by
  rw [parseTrustedCert]
  simp only [Rd.bind_ok, readUTF_ok', readDate_ok, ne_eq, ite_fail, readBytes_ok', Rd.ret_ok]
  constructor
  · rintro ⟨a, u1, ⟨h1, h2⟩, d, u2, ⟨ms, h3, h4, h5⟩, ty, u3, ⟨h6, h7⟩, h8, c, u4, ⟨h9, h10⟩, rfl, rfl⟩
    refine ⟨a, ms, c, ⟨h1, h3, h9⟩, by rw [h4]; rfl, ?_⟩
    rw [h2, h5, h7, h10, h8, Entry.enc, x509_eq]
    simp only [List.append_assoc]
  · rintro ⟨a, ms, c, ⟨h1, h2, h3⟩, rfl, h8⟩
    refine ⟨a, _, ⟨h1, ?_⟩, _, _, ⟨ms, h2, rfl, rfl⟩, certType, _, ⟨by decide, rfl⟩, rfl, c, t, ⟨h3, rfl⟩, rfl, rfl⟩
    rw [Entry.enc] at h8
    simp only [List.append_assoc] at h8
    exact List.append_cancel_left h8

/-- the octets of entries -/
def encAll (es : List Entry) : Bytes := (es.map Entry.enc).flatten

theorem encAll_cons (e : Entry) (es : List Entry) : encAll (e :: es) = e.enc ++ encAll es := by simp [encAll]

theorem parseEntries_ok : ∀ (n : Nat) (s0 s1 : Store) (s t : Bytes), parseEntries n s0 s = .ok (s1, t) ↔
    ∃ es : List Entry, es.length = n ∧ (∀ e ∈ es, e.Valid) ∧ s1 = es.foldl Entry.into s0 ∧ s = encAll es ++ t
  | 0, s0, s1, s, t => by
    rw [parseEntries, Rd.ret_ok]
    constructor
    · rintro ⟨rfl, rfl⟩; exact ⟨[], rfl, by simp, rfl, rfl⟩
    · rintro ⟨es, h1, -, h2, h3⟩
      obtain rfl := List.length_eq_zero_iff.1 h1
      exact ⟨h2.symm, h3⟩
  | n + 1, s0, s1, s, t => by
    rw [parseEntries]
    simp only [Rd.bind_ok, readInt32, rdNat_ok, parseEntries_ok n]
    constructor
    · rintro ⟨tag, u, ⟨h1, h2⟩, s', v, h3, es, h4, h5, h6, h7⟩
      have key : ∃ e : Entry, e.Valid ∧ s' = e.into s0 ∧ s = e.enc ++ v := by
        split at h3
        · rename_i ht
          subst ht
          obtain ⟨a, ms, k, chain, m, g1, g2, g3⟩ := (parsePrivateKey_ok ..).1 h3
          exact ⟨_, g1, g2, by rw [h2, g3]⟩
        · split at h3
          · rename_i ht
            subst ht
            obtain ⟨a, ms, c, g1, g2, g3⟩ := (parseTrustedCert_ok ..).1 h3
            exact ⟨_, g1, g2, by rw [h2, g3]⟩
          · cases h3
      obtain ⟨e, g1, g2, g3⟩ := key
      refine ⟨e :: es, by simp [h4], ?_, by rw [h6, g2]; rfl, by rw [g3, h7, encAll_cons, List.append_assoc]⟩
      intro x hx1
      rcases List.mem_cons.1 hx1 with rfl | hx1
      · exact g1
      · exact h5 x hx1
    · rintro ⟨es, h1, h2, h3, h4⟩
      cases es with
      | nil => cases h1
      | cons e es =>
        rw [encAll_cons, List.append_assoc] at h4
        have hv := h2 e (by simp)
        have tail : ∃ es' : List Entry, es'.length = n ∧ (∀ e ∈ es', e.Valid) ∧ s1 = es'.foldl Entry.into (e.into s0) ∧ encAll es ++ t = encAll es' ++ t :=
          ⟨es, by simpa using h1, fun x hx1 => h2 x (by simp [hx1]), h3, rfl⟩
        cases e with
        | key a ms k chain m =>
          refine ⟨1, str16 a ++ (hx 8 ms ++ (str32 k ++ (hx 4 m ++ (chainEnc chain ++ (encAll es ++ t))))), ⟨by decide, ?_⟩, (Entry.key a ms k chain m).into s0, encAll es ++ t, ?_, tail⟩
          · rw [h4, Entry.enc, chainEnc]; simp only [List.append_assoc]
          · rw [if_pos rfl]
            refine (parsePrivateKey_ok ..).2 ⟨a, ms, k, chain, m, hv, rfl, ?_⟩
            rw [Entry.enc, chainEnc]; simp only [List.append_assoc]
        | cert a ms c =>
          refine ⟨2, str16 a ++ (hx 8 ms ++ (str16 x509 ++ (str32 c ++ (encAll es ++ t)))), ⟨by decide, ?_⟩, (Entry.cert a ms c).into s0, encAll es ++ t, ?_, tail⟩
          · rw [h4, Entry.enc]; simp only [List.append_assoc]
          · rw [if_neg (by decide), if_pos rfl]
            refine (parseTrustedCert_ok ..).2 ⟨a, ms, c, hv, rfl, ?_⟩
            rw [Entry.enc]; simp only [List.append_assoc]

theorem parseBody_ok (s0 s1 : Store) (s t : Bytes) : parseBody s0 s = .ok (s1, t) ↔
    ∃ (count : Nat) (es : List Entry), count < 2 ^ 32 ∧ es.length = (signed32 count).toNat ∧ (∀ e ∈ es, e.Valid) ∧ s1 = es.foldl Entry.into s0 ∧
      s = body count es ++ t := by
  rw [parseBody]
  simp only [Rd.bind_ok, ne_eq, ite_fail, readInt32, rdNat_ok, parseEntries_ok]
  constructor
  · rintro ⟨m, u1, ⟨h1, h2⟩, rfl, v, u2, ⟨h3, h4⟩, rfl, c, u3, ⟨h5, h6⟩, es, h7, h8, h9, h10⟩
    refine ⟨c, es, h5, h7, h8, h9, ?_⟩
    rw [h2, h4, h6, h10, body, encAll]
    simp only [List.append_assoc]
  · rintro ⟨c, es, h1, h2, h3, h4, h5⟩
    refine ⟨_, hx 4 2 ++ (hx 4 c ++ (encAll es ++ t)), ⟨by decide, ?_⟩, rfl, _, hx 4 c ++ (encAll es ++ t), ⟨by decide, rfl⟩, rfl, c, _, ⟨h1, rfl⟩, es, h2, h3, h4, rfl⟩
    rw [h5, body, encAll]
    simp only [List.append_assoc]

theorem keyedHash_eq (S : Sha1) (password data : Bytes) : keyedHash S password data = digest S.h.f password data := by
  rw [keyedHash, digest, charsToBytes_eq]

theorem keyedHash_length (S : Sha1) (password data : Bytes) : (keyedHash S password data).length = 20 := by
  rw [keyedHash, S.h.len, S.size]

end Verif.Jks
