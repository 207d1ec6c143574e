import Verif.Pub.Bign
/-
C167: bign signatures (pubkey/bign).  The specification is STB 34.101.45, section 7, stated with octet strings read least
significant octet first (`leN`) and the group of the curve.
-/
namespace Verif.Pub.Bign
open Verif.Cipher Verif.Kdf

namespace Spec

/-- `<BELT-HASH(OID(H) ‖ <R>2l ‖ H(X))>l`: a point is the octets of its coordinates, least significant first. -/
def tag (c : Curve) (B : HashFn) (oid h : Bytes) (R : c.α) : Bytes :=
  let pt := (hx (byteLen c.P) (c.x R)).reverse ++ (hx (byteLen c.P) (c.y R)).reverse
  (B.f (oid ++ pt.take (2 * (c.plen / 2)) ++ h)).take (c.plen / 2)

/-- The point `(S1 + H)·G + (S0 + 2^l)·Q` of verification. -/
def point (c : Curve) (Q : c.α) (h S0 : Bytes) (s1 : Nat) : c.α :=
  (s1 + leN h) • c.G + (leN S0 + 256 ^ (c.plen / 2)) • Q

/-- A valid signature `S0 ‖ S1`: `S1 < q`, and `S0` is the tag of the point.  (The library also rejects `S1 = 0`; the
standard's test `R ≠ O` is not made.) -/
def Valid (c : Curve) (B : HashFn) (Q : c.α) (oid h S0 S1 : Bytes) : Prop :=
  S0.length = c.plen / 2 ∧ S1.length = c.plen ∧ 0 < leN S1 ∧ leN S1 < c.N ∧ S0 = tag c B oid h (point c Q h S0 (leN S1))

/-- The sizes of the standard's parameter sets: coordinates and scalars fit in the octets of the field, and the hash function
and the belt hash are no shorter than half of them. -/
structure Sizes (c : Curve) (B H : HashFn) : Prop where
  N : c.N ≤ 256 ^ c.plen
  P : c.plen / 2 ≤ byteLen c.P
  B : c.plen / 2 ≤ B.size
  H : c.plen / 2 ≤ H.size

end Spec

theorem setBytes_reverse (b : Bytes) : setBytes b.reverse = leN b := by
  rw [setBytes, Kb.beN, List.reverse_reverse]

theorem setBytes_eq_leN (b : Bytes) : setBytes b = leN b.reverse := rfl

theorem leN_zeros : ∀ n : Nat, leN (List.replicate n (0#8)) = 0
  | 0 => rfl
  | n + 1 => by simp [List.replicate_succ, leN, leN_zeros n]

theorem eq_zeros_of_leN : ∀ b : Bytes, leN b = 0 → b = List.replicate b.length 0#8
  | [], _ => rfl
  | x :: b, h => by
    simp only [leN] at h
    have hx : x = 0#8 := BitVec.eq_of_toNat_eq (by simp; omega)
    rw [List.length_cons, List.replicate_succ, hx]
    congr 1
    exact eq_zeros_of_leN b (by omega)

theorem setBytes_eq_zero (b : Bytes) : setBytes b = 0 ↔ leN b = 0 := by
  constructor
  · intro h
    have := eq_zeros_of_leN b.reverse h
    have : b = List.replicate b.length 0#8 := by
      rw [← List.reverse_reverse b, this]; simp
    rw [this, leN_zeros]
  · intro h
    rw [eq_zeros_of_leN b h, setBytes_eq_leN, List.reverse_replicate, leN_zeros]

theorem slice_zero {a : Bytes} {n : Nat} (h : n ≤ a.length) : slice a 0 n = .ok (a.take n) := by
  rw [slice, if_pos ⟨Nat.zero_le _, h⟩, List.drop_zero]

theorem wBytes_eq (c : Curve) (W : c.α) :
    wBytes c W = .ok ((hx (byteLen c.P) (c.x W)).reverse ++ (hx (byteLen c.P) (c.y W)).reverse) := by
  rw [wBytes, fillBytes_ok (Nat.lt_trans (c.x_lt W) (lt_pow_byteLen _)), fillBytes_ok (Nat.lt_trans (c.y_lt W) (lt_pow_byteLen _))]
  rfl

theorem tag_eq {c : Curve} {B H : HashFn} (hs : Spec.Sizes c B H) {adata oid : Bytes} (ho : getOid adata = .ok oid) (h : Bytes)
    (W : c.α) : tag c B H.size adata h W = .ok (Spec.tag c B oid h W) := by
  have h1 := hs.P
  have h2 := hs.B
  have h3 := hs.H
  rw [tag, ho, Res.bind_ok, wBytes_eq, Res.bind_ok, slice_zero (by simp [ell]; omega), Res.bind_ok,
    Nat.min_eq_left (by simpa [ell] using h3), slice_zero (by rw [B.len]; exact h2), Res.bind_ok]
  simp [Spec.tag, ell, B.len, h2]

theorem tag_length {c : Curve} {B H : HashFn} (hs : Spec.Sizes c B H) (oid h : Bytes) (W : c.α) :
    (Spec.tag c B oid h W).length = c.plen / 2 := by
  have h2 := hs.B
  simp [Spec.tag, B.len, h2]

theorem two_pow (c : Curve) : 1 <<< (8 * ell c) = 256 ^ (c.plen / 2) := by
  rw [Nat.one_shiftLeft, ell, Nat.pow_mul]

/-- The point of `VerifyWithRS` is that of the standard. -/
theorem point_eq (c : Curve) {Q : c.α} (hQ : ∃ k : Nat, Q = k • c.G) (h S0 : Bytes) (s1 : Nat) :
    c.mult Q ((1 <<< (8 * ell c) % c.N + leN S0) % c.N) + c.baseMult ((leN h % c.N + s1) % c.N) = Spec.point c Q h S0 s1 := by
  obtain ⟨k, rfl⟩ := hQ
  rw [c.mult_eq, c.baseMult_eq, Spec.point, two_pow, ← mul_smul, ← mul_smul, ← add_smul, ← add_smul]
  refine c.smul_congr ?_
  push_cast
  simp only [ZMod.natCast_mod]
  push_cast
  simp only [ZMod.natCast_mod]
  push_cast
  ring

/-- `VerifyWithRS` on the numbers of two octet strings of the right lengths. -/
theorem verify_eq {c : Curve} {B H : HashFn} (hs : Spec.Sizes c B H) {Q : c.α} (hQ0 : Q ≠ 0) (hQ : ∃ k : Nat, Q = k • c.G)
    {adata oid : Bytes} (ho : getOid adata = .ok oid) (msg : Bytes) {S0 S1 : Bytes} (h0 : S0.length = c.plen / 2)
    (h1 : S1.length = c.plen) :
    ∃ b, verifyWithRS c B Q H msg adata (setBytes S0) (setBytes S1) = .ok b ∧ (b = true ↔ Spec.Valid c B Q oid (H.f msg) S0 S1) := by
  have hl : S0.length = ell c := h0
  rw [verifyWithRS, if_neg (by simp [Curve.onCurve, hQ0])]
  by_cases hz : leN S1 = 0
  · refine ⟨false, ?_, ?_⟩
    · rw [if_pos]
      have := (setBytes_eq_zero S1).mpr hz
      omega
    · simp [Spec.Valid, hz]
  have hz' : setBytes S1 ≠ 0 := fun e => hz ((setBytes_eq_zero S1).mp e)
  have e0 : fillBytes (ell c) ((setBytes S0 : Nat) : Int).natAbs = .ok S0 := by
    rw [Int.natAbs_natCast, ← hl, fillBytes_ok (setBytes_lt S0), hx_setBytes]
  have e1 : fillBytes c.plen ((setBytes S1 : Nat) : Int).natAbs = .ok S1 := by
    rw [Int.natAbs_natCast, ← h1, fillBytes_ok (setBytes_lt S1), hx_setBytes]
  rw [if_neg (by omega), e0, Res.bind_ok, e1, Res.bind_ok]
  simp only [setBytes_reverse]
  by_cases hN : c.N ≤ leN S1
  · rw [if_pos hN]
    refine ⟨false, rfl, ?_⟩
    simp only [Spec.Valid]
    constructor
    · intro h; simp at h
    · intro h; omega
  rw [if_neg hN, point_eq c hQ, tag_eq hs ho]
  simp only
  rw [Nat.min_eq_left (by have := hs.H; simpa [ell] using this), e0, Res.bind_ok]
  refine ⟨_, rfl, ?_⟩
  rw [hl, Nat.sub_self, List.replicate_zero, List.append_nil, beq_iff_eq]
  simp only [Spec.Valid]
  constructor
  · intro h
    exact ⟨h0, h1, by omega, by omega, h.symm⟩
  · intro h
    exact h.2.2.2.2.symm

/-- C167. `VerifyBytes` accepts exactly the octet strings `S0 ‖ S1` that are valid signatures of the message under the public
key, whatever their length and content. -/
theorem C167_verifyBytes {c : Curve} {B H : HashFn} (hs : Spec.Sizes c B H) {Q : c.α} (hQ0 : Q ≠ 0) (hQ : ∃ k : Nat, Q = k • c.G)
    {adata oid : Bytes} (ho : getOid adata = .ok oid) (msg sig : Bytes) :
    ∃ b, verifyBytes c B Q H msg adata sig = .ok b ∧
      (b = true ↔ ∃ S0 S1, sig = S0 ++ S1 ∧ Spec.Valid c B Q oid (H.f msg) S0 S1) := by
  rw [verifyBytes]
  by_cases hl : sig.length = ell c + c.plen
  · rw [if_neg (by simpa using hl)]
    have hle : ell c ≤ sig.length := by omega
    obtain ⟨b, e, hb⟩ := verify_eq hs hQ0 hQ ho msg (S0 := sig.take (ell c)) (S1 := sig.drop (ell c))
      (by rw [List.length_take]; simp only [ell] at *; omega) (by rw [List.length_drop]; omega)
    refine ⟨b, e, hb.trans ⟨fun h => ⟨_, _, (List.take_append_drop _ _).symm, h⟩, ?_⟩⟩
    rintro ⟨S0, S1, rfl, h⟩
    have : S0.length = ell c := h.1
    rw [← this, List.take_left, List.drop_left]
    exact h
  · rw [if_pos hl]
    refine ⟨false, rfl, ?_⟩
    constructor
    · intro h; simp at h
    · rintro ⟨S0, S1, rfl, h⟩
      exact absurd (by rw [List.length_append, h.1, h.2.1]; rfl) hl

theorem randInt_lt (N : Nat) : ∀ fuel rd k, randInt N fuel rd = .ok k → k < N
  | 0, _, _, h => by simp [randInt] at h
  | fuel + 1, rd, k, h => by
    simp only [randInt] at h
    split at h
    · simp at h
    · split at h
      · next hk => rw [← Res.ok.inj h]; exact hk
      · exact randInt_lt N fuel _ _ h

theorem nonceLoop_range (E : Bytes → Bytes) (q qb n : Nat) : ∀ fuel i r k, nonceLoop E q qb n fuel i r = .ok k → 0 < k ∧ k < q
  | 0, _, _, _, h => by simp [nonceLoop] at h
  | fuel + 1, i, r, k, h => by
    simp only [nonceLoop] at h
    split at h
    · next hk => rw [← Res.ok.inj h]; omega
    · split at h
      · simp at h
      · exact nonceLoop_range E q qb n fuel _ _ _ h

theorem nonceLoop_cases (E : Bytes → Bytes) (q qb n : Nat) : ∀ fuel i r, i + fuel ≥ 2 ^ 32 → i < 2 ^ 32 →
    nonceLoop E q qb n fuel i r = .err ∨ ∃ k, nonceLoop E q qb n fuel i r = .ok k
  | 0, i, r, h, h2 => by omega
  | fuel + 1, i, r, h, h2 => by
    simp only [nonceLoop]
    split
    · exact .inr ⟨_, rfl⟩
    · split
      · exact .inl rfl
      · exact nonceLoop_cases E q qb n fuel _ _ (by omega) (by omega)

theorem randInt_cases (N : Nat) (hN : 2 ≤ N) : ∀ fuel rd, rd.length < fuel → randInt N fuel rd = .err ∨ ∃ k, randInt N fuel rd = .ok k
  | 0, _, h => by omega
  | fuel + 1, rd, h => by
    have hw := byteLen_pos (N := N - 1) (by omega)
    simp only [randInt]
    split
    · exact .inl rfl
    · split
      · exact .inr ⟨_, rfl⟩
      · exact randInt_cases N hN fuel _ (by simp; omega)

/-- C167. The nonce is a number below the order; without a reader it is not 0 either. -/
theorem C167_nonce (c : Curve) (B : HashFn) (E : Bytes → Bytes → Bytes) (random : Option Bytes) (d : Nat) (adata h : Bytes)
    {k : Nat} (hk : nonce c B E random d adata h = .ok k) : k < c.N ∧ (random = none → 0 < k) := by
  cases random with
  | some rd => exact ⟨randInt_lt _ _ _ _ hk, fun e => by simp at e⟩
  | none =>
    simp only [nonce, detNonce] at hk
    rcases hg : getOid adata with oid | _ | _ | _ <;> rw [hg] at hk
    · rcases ht : getT adata with t | _ | _ | _ <;> rw [ht] at hk
      · rcases hf : fillBytes c.plen d with f | _ | _ | _ <;> rw [hf] at hk
        · simp only [Res.bind_ok] at hk
          generalize (if h.length / 16 ≤ 1 then 2 else h.length / 16) = n at hk
          by_cases hn : 96 < 16 * n
          · rw [if_pos hn] at hk
            exact absurd hk (by simp)
          · rw [if_neg hn] at hk
            have := nonceLoop_range _ _ _ _ _ _ _ _ hk
            exact ⟨this.2, fun _ => this.1⟩
        all_goals simp at hk
      all_goals simp at hk
    all_goals simp at hk

/-- The number `S1` of signing: `k − (S0 + 2^l)·d − H` modulo the order. -/
def s1Of (c : Curve) (d k : Nat) (h S0 : Bytes) : Nat :=
  (((((k : Int) - ((leN S0 % c.N + 1 <<< (8 * ell c) % c.N) % c.N * d % c.N : Nat)) % c.N).toNat - ((leN h % c.N : Nat) : Int)) % c.N).toNat

theorem s1Of_lt (c : Curve) (d k : Nat) (h S0 : Bytes) : s1Of c d k h S0 < c.N := by
  have hp := c.N_pos
  unfold s1Of
  generalize (_ - _ : Int) = z
  have h1 := Int.emod_lt_of_pos z (b := c.N) (by omega)
  have h2 := Int.emod_nonneg z (b := (c.N : Int)) (by omega)
  omega

theorem cast_toNat_emod (c : Curve) (z : Int) : (((z % c.N).toNat : Nat) : ZMod c.N) = (z : ZMod c.N) := by
  have h2 := Int.emod_nonneg z (b := (c.N : Int)) (by have := c.N_pos; omega)
  have : (((z % c.N).toNat : Nat) : ZMod c.N) = (((z % c.N).toNat : Int) : ZMod c.N) := by push_cast; rfl
  rw [this, Int.toNat_of_nonneg h2, ZMod.intCast_mod]

theorem cast_s1Of (c : Curve) (d k : Nat) (h S0 : Bytes) :
    ((s1Of c d k h S0 : Nat) : ZMod c.N) = k - (leN S0 + 256 ^ (c.plen / 2)) * d - leN h := by
  rw [s1Of, two_pow, cast_toNat_emod, Int.cast_sub, Int.cast_natCast, cast_toNat_emod]
  push_cast
  ring

/-- The point of verification of a signature made with `k` is `k·G`. -/
theorem point_s1Of (c : Curve) (d k : Nat) (h S0 : Bytes) : Spec.point c (d • c.G) h S0 (s1Of c d k h S0) = k • c.G := by
  rw [Spec.point, ← mul_smul, ← add_smul]
  refine c.smul_congr ?_
  push_cast
  rw [cast_s1Of]
  ring

theorem sign_eq {c : Curve} {B H : HashFn} (hs : Spec.Sizes c B H) (E : Bytes → Bytes → Bytes) {random : Option Bytes}
    {d : Nat} {Q : c.α} (hkp : IsKeyPair c d Q) {adata oid : Bytes} (ho : getOid adata = .ok oid) (msg : Bytes) {k : Nat}
    (hk : nonce c B E random d adata (H.f msg) = .ok k) :
    signToRS c B E random ⟨d, Q⟩ H msg adata = .ok (setBytes (Spec.tag c B oid (H.f msg) (k • c.G)),
      setBytes (hx c.plen (s1Of c d k (H.f msg) (Spec.tag c B oid (H.f msg) (k • c.G)))).reverse) := by
  have hd := hkp.2.1
  have hne : adata.length ≠ 0 := by
    intro e
    have hn : adata = [] := List.length_eq_zero_iff.mp e
    subst hn
    exact absurd ho (by simp [getOid, badAdata])
  rw [signToRS, if_neg (by simp [Curve.onCurve, hkp.ne_zero]), if_neg (by simp only; omega), if_neg hne]
  simp only
  rw [hk, Res.bind_ok, tag_eq hs ho, Res.bind_ok, c.baseMult_eq]
  simp only [setBytes_reverse]
  have hlt := s1Of_lt c d k (H.f msg) (Spec.tag c B oid (H.f msg) (k • c.G))
  have := hs.N
  rw [show (_ : Int).toNat = s1Of c d k (H.f msg) (Spec.tag c B oid (H.f msg) (k • c.G)) from rfl,
    fillBytes_ok (by omega), Res.bind_ok]

/-- C167. `SignBytes` with a nonce `k` returns a signature `S0 ‖ S1` of the standard's length made from `k·G`, and `VerifyBytes`
accepts it for the same message and additional data, unless `S1 = 0`.  Missing from the full claim: `S1 = 0`
(`C167_zero_violated`), hash functions shorter than half the field (`C167_short_hash_violated`). -/
theorem C167_sign_verifies_partial {c : Curve} {B H : HashFn} (hs : Spec.Sizes c B H) (E : Bytes → Bytes → Bytes)
    {random : Option Bytes} {d : Nat} {Q : c.α} (hkp : IsKeyPair c d Q) {adata oid : Bytes} (ho : getOid adata = .ok oid)
    (msg : Bytes) {k : Nat} (hk : nonce c B E random d adata (H.f msg) = .ok k) :
    ∃ S0 S1, signBytes c B E random ⟨d, Q⟩ H msg adata = .ok (S0 ++ S1) ∧
      signToRS c B E random ⟨d, Q⟩ H msg adata = .ok (setBytes S0, setBytes S1) ∧
      S0.length = c.plen / 2 ∧ S1.length = c.plen ∧ S0 = Spec.tag c B oid (H.f msg) (k • c.G) ∧ leN S1 < c.N ∧
      ((leN S1 : Nat) : ZMod c.N) = k - (leN S0 + 256 ^ (c.plen / 2)) * d - leN (H.f msg) ∧
      (leN S1 ≠ 0 → Spec.Valid c B Q oid (H.f msg) S0 S1 ∧
        verifyBytes c B Q H msg adata (S0 ++ S1) = .ok true ∧
        verifyWithRS c B Q H msg adata (setBytes S0) (setBytes S1) = .ok true) := by
  have hsig := sign_eq hs E hkp ho msg hk
  generalize hS0 : Spec.tag c B oid (H.f msg) (k • c.G) = S0 at hsig
  have hl0 : S0.length = c.plen / 2 := by rw [← hS0]; exact tag_length hs _ _ _
  have hlt := s1Of_lt c d k (H.f msg) S0
  have hN := hs.N
  generalize hS1 : (hx c.plen (s1Of c d k (H.f msg) S0)).reverse = S1 at hsig
  have hl1 : S1.length = c.plen := by rw [← hS1]; simp
  have hv : leN S1 = s1Of c d k (H.f msg) S0 := by
    rw [← setBytes_reverse, ← hS1, List.reverse_reverse, setBytes_hx _ _ (by omega)]
  have hval : leN S1 ≠ 0 → Spec.Valid c B Q oid (H.f msg) S0 S1 := by
    intro h
    refine ⟨hl0, hl1, by omega, by omega, ?_⟩
    rw [hv, hkp.2.2, point_s1Of, hS0]
  refine ⟨S0, S1, ?_, hsig, hl0, hl1, rfl, by omega, by rw [hv, cast_s1Of], ?_⟩
  · have hl0' : S0.length = ell c := hl0
    have e0 : fillBytes (ell c) (setBytes S0) = .ok S0 := by
      rw [← hl0', fillBytes_ok (setBytes_lt S0), hx_setBytes]
    have e1 : fillBytes c.plen (setBytes S1) = .ok S1 := by
      rw [← hl1, fillBytes_ok (setBytes_lt S1), hx_setBytes]
    rw [signBytes, hsig, Res.bind_ok]
    simp only
    rw [Nat.min_eq_left (by have := hs.H; simpa [ell] using this), e0, Res.bind_ok, e1, Res.bind_ok, hl0', Nat.sub_self]
    simp
  · intro h
    have hQ : ∃ k : Nat, Q = k • c.G := ⟨d, hkp.2.2⟩
    refine ⟨hval h, ?_, ?_⟩
    · obtain ⟨b, e, hb⟩ := C167_verifyBytes hs hkp.ne_zero hQ ho msg (S0 ++ S1)
      rw [e, hb.mpr ⟨S0, S1, rfl, hval h⟩]
    · obtain ⟨b, e, hb⟩ := verify_eq hs hkp.ne_zero hQ ho msg hl0 hl1
      rw [e, hb.mpr (hval h)]

/-- C167. A reader that delivers zeros makes `SignBytes` use the nonce 0, which the standard excludes, and the signature then
gives the private key away: it solves a linear equation in which everything else is public. -/
theorem C167_zero_nonce_violated {c : Curve} {B H : HashFn} (hs : Spec.Sizes c B H) (E : Bytes → Bytes → Bytes) {d : Nat} {Q : c.α}
    (hkp : IsKeyPair c d Q) {adata oid : Bytes} (ho : getOid adata = .ok oid) (msg : Bytes) :
    ∃ S0 S1, signBytes c B E (some (List.replicate (byteLen (c.N - 1)) 0#8)) ⟨d, Q⟩ H msg adata = .ok (S0 ++ S1) ∧
      S0.length = c.plen / 2 ∧
      ((leN S0 : ZMod c.N) + 256 ^ (c.plen / 2)) * d = -(leN S1 + leN (H.f msg)) := by
  have hk : nonce c B E (some (List.replicate (byteLen (c.N - 1)) 0#8)) d adata (H.f msg) = .ok 0 := by
    have hz : setBytes (List.replicate (byteLen (c.N - 1)) (0#8)) = 0 := by
      rw [setBytes_eq_leN, List.reverse_replicate, leN_zeros]
    simp only [nonce, randInt]
    rw [if_neg (by simp), List.take_of_length_le (by simp), hz, Nat.zero_mod, if_pos c.N_pos]
  obtain ⟨S0, S1, h1, _, hl, _, _, _, hv, _⟩ := C167_sign_verifies_partial hs E hkp ho msg hk
  refine ⟨S0, S1, h1, hl, ?_⟩
  rw [hv]
  push_cast
  ring

/-- C167. On a number `r` of more than `l` octets `VerifyWithRS` gives no verdict. -/
theorem C167_long_r_violated (c : Curve) (B H : HashFn) {Q : c.α} (hQ : Q ≠ 0) (msg adata : Bytes) (r s : Int) (hs : 0 < s)
    (hr : (256 ^ (c.plen / 2) : Nat) ≤ r.natAbs) : verifyWithRS c B Q H msg adata r s = .panic := by
  rw [verifyWithRS, if_neg (by simp [Curve.onCurve, hQ]), if_neg (by omega), fillBytes_panic (by simp only [ell]; omega)]
  rfl

/-- C167. Signing fails with an error, and gives no signature, when the public key is the neutral element, when the private key is not below the order of the base
point, and when no additional data is given. -/
theorem C167_sign_refused (c : Curve) (B H : HashFn) (E : Bytes → Bytes → Bytes) (random : Option Bytes) (d : Nat) (Q : c.α) (msg adata : Bytes)
    (h : Q = 0 ∨ c.N ≤ d ∨ adata = []) : signToRS c B E random ⟨d, Q⟩ H msg adata = .err ∧ signBytes c B E random ⟨d, Q⟩ H msg adata = .err := by
  have e : signToRS c B E random ⟨d, Q⟩ H msg adata = .err := by
    unfold signToRS
    by_cases h1 : Q = 0
    · rw [if_pos (by simp [Curve.onCurve, h1])]
    · rw [if_neg (by simp [Curve.onCurve, h1])]
      by_cases h2 : c.N ≤ d
      · rw [if_pos h2]
      · rw [if_neg h2, if_pos (by rcases h with h | h | h; · exact absurd h h1
                                  · exact absurd h h2
                                  · rw [h]; rfl)]
  exact ⟨e, by rw [signBytes, e]; rfl⟩

/-- C167. `VerifyWithRS` ignores the sign of `r`: with `(r, s)` it accepts `(−r, s)`. -/
theorem C167_negative_r_violated (c : Curve) (B H : HashFn) (Q : c.α) (msg adata : Bytes) (r s : Int) :
    verifyWithRS c B Q H msg adata (-r) s = verifyWithRS c B Q H msg adata r s := by
  simp only [verifyWithRS, Int.natAbs_neg]

theorem u16_eq (a b : Byte) : (a.setWidth 16 <<< 8 ||| b.setWidth 16 : BitVec 16).toNat = a.toNat * 256 + b.toNat := by
  have ha := a.isLt
  have hb := b.isLt
  rw [BitVec.toNat_or, BitVec.toNat_shiftLeft, BitVec.toNat_setWidth, BitVec.toNat_setWidth, Nat.mod_eq_of_lt (by omega),
    Nat.mod_eq_of_lt (a := b.toNat) (by omega), Nat.shiftLeft_eq, Nat.mod_eq_of_lt (by omega), Nat.mul_comm,
    ← Nat.two_pow_add_eq_or_of_lt (i := 8) hb]

theorem two_lt (a b : Byte) : a.toNat * 256 + b.toNat < 65536 := by
  have := a.isLt
  have := b.isLt
  omega

theorem hx_two (n : Nat) : hx 2 n = [BitVec.ofNat 8 (n / 256), BitVec.ofNat 8 n] := by
  simp [hx, leBytes]

/-- C167. Of additional data shorter than 65536 octets, `GetOidFromAdata` and `GetTFromAdata` return the two fields, when there
are two fields of the lengths the first four octets announce, and an error otherwise. -/
theorem C167_adata (adata : Bytes) (h : adata.length < 65536) :
    (∃ oid t rest, adata = hx 2 oid.length ++ hx 2 t.length ++ oid ++ t ++ rest ∧ oid.length < 65536 ∧ t.length < 65536 ∧
      getOid adata = .ok oid ∧ getT adata = .ok t) ∨
    ((¬∃ oid t rest, adata = hx 2 oid.length ++ hx 2 t.length ++ oid ++ t ++ rest) ∧ getOid adata = .err ∧ getT adata = .err) := by
  match adata, h with
  | [], _ => exact .inr ⟨fun ⟨o, t, r, e⟩ => by have := congrArg List.length e; simp only [List.length_append, hx_length, List.length_cons, List.length_nil] at this; omega, rfl, rfl⟩
  | [a], _ => exact .inr ⟨fun ⟨o, t, r, e⟩ => by have := congrArg List.length e; simp only [List.length_append, hx_length, List.length_cons, List.length_nil] at this; omega, rfl, rfl⟩
  | [a, b], _ => exact .inr ⟨fun ⟨o, t, r, e⟩ => by have := congrArg List.length e; simp only [List.length_append, hx_length, List.length_cons, List.length_nil] at this; omega, rfl, rfl⟩
  | [a, b, c], _ => exact .inr ⟨fun ⟨o, t, r, e⟩ => by have := congrArg List.length e; simp only [List.length_append, hx_length, List.length_cons, List.length_nil] at this; omega, rfl, rfl⟩
  | a :: b :: c :: d :: l, h =>
    have hlen : l.length + 4 < 65536 := by simpa using h
    have e1 : (u16 (a :: b :: c :: d :: l) 0).toNat = a.toNat * 256 + b.toNat := u16_eq a b
    have e2 : (u16 (a :: b :: c :: d :: l) 2).toNat = c.toNat * 256 + d.toNat := u16_eq c d
    have hab : a.toNat * 256 + b.toNat < 65536 := two_lt a b
    have hcd : c.toNat * 256 + d.toNat < 65536 := two_lt c d
    have e3 : (BitVec.ofNat 16 (a :: b :: c :: d :: l).length - 4#16).toNat = l.length := by
      rw [BitVec.toNat_sub, BitVec.toNat_ofNat]
      simp only [List.length_cons, BitVec.toNat_ofNat]
      omega
    have hbad : badAdata (a :: b :: c :: d :: l) = true ↔ l.length < (a.toNat * 256 + b.toNat) + (c.toNat * 256 + d.toNat) := by
      simp only [badAdata, Bool.or_eq_true, decide_eq_true_eq, BitVec.lt_def, BitVec.toNat_add, e1, e2, e3]
      simp only [List.length_cons]
      omega
    have enc (n : Nat) (hn : n < 65536) (x y : Byte) : hx 2 n = [x, y] ↔ n = x.toNat * 256 + y.toNat := by
      have := x.isLt
      have := y.isLt
      rw [hx_two]
      simp only [List.cons.injEq, and_true, ← BitVec.toNat_inj, BitVec.toNat_ofNat]
      omega
    by_cases hb : badAdata (a :: b :: c :: d :: l) = true
    · refine .inr ⟨?_, by rw [getOid, if_pos hb], by rw [getT, if_pos hb]⟩
      rintro ⟨o, t, r, e⟩
      have hL := congrArg List.length e
      simp at hL
      rw [hx_two, hx_two] at e
      simp only [List.cons_append, List.nil_append, List.cons.injEq] at e
      obtain ⟨ea, eb, ec, ed, el⟩ := e
      have ho := (enc o.length (by omega) a b).mp (by rw [hx_two, ea, eb])
      have ht := (enc t.length (by omega) c d).mp (by rw [hx_two, ec, ed])
      have := hbad.mp hb
      omega
    · have hle := mt hbad.mpr hb
      obtain ⟨o, ho⟩ : ∃ o, a.toNat * 256 + b.toNat = o := ⟨_, rfl⟩
      obtain ⟨t, ht⟩ : ∃ t, c.toNat * 256 + d.toNat = t := ⟨_, rfl⟩
      rw [ho] at e1 hab hle
      rw [ht] at e2 hcd hle
      clear hbad e3
      have f1 : (4#16 + u16 (a :: b :: c :: d :: l) 0).toNat = o + 4 := by
        rw [BitVec.toNat_add, e1]; simp; omega
      have f2 : (4#16 + u16 (a :: b :: c :: d :: l) 0 + u16 (a :: b :: c :: d :: l) 2).toNat = o + t + 4 := by
        rw [BitVec.toNat_add, f1, e2]; omega
      refine .inl ⟨l.take o, (l.drop o).take t, l.drop (o + t), ?_, by simp; omega, by simp; omega, ?_, ?_⟩
      · have l1 : (l.take o).length = o := by simp; omega
        have l2 : ((l.drop o).take t).length = t := by simp; omega
        rw [l1, l2, (enc o hab a b).mpr ho.symm, (enc t hcd c d).mpr ht.symm]
        simp only [List.cons_append, List.nil_append, List.cons.injEq, true_and]
        rw [← List.drop_drop, List.append_assoc, List.take_append_drop, List.take_append_drop]
      · rw [getOid, if_neg hb, f1, slice, if_pos ⟨by omega, by simp; omega⟩]
        simp
      · rw [getT, if_neg hb, f1, f2, slice, if_pos ⟨by omega, by simp; omega⟩]
        simp [List.drop_take]

/-- C167. `MakeAdata` and back. -/
theorem C167_makeAdata (oid t : Bytes) (h : oid.length + t.length + 4 < 65536) :
    getOid (makeAdata oid t) = .ok oid ∧ getT (makeAdata oid t) = .ok t := by
  have hl : (makeAdata oid t).length = oid.length + t.length + 4 := by simp [makeAdata]; omega
  rcases C167_adata (makeAdata oid t) (by omega) with ⟨o, t', r, e, h1, h2, h3, h4⟩ | ⟨h1, _⟩
  · rw [makeAdata] at e
    have inj (m n : Nat) (hm : m < 65536) (hn : n < 65536) (e : hx 2 m = hx 2 n) : m = n := by
      have := congrArg setBytes e
      rwa [setBytes_hx _ _ (by omega), setBytes_hx _ _ (by omega)] at this
    have e' : hx 2 oid.length ++ (hx 2 t.length ++ (oid ++ t)) = hx 2 o.length ++ (hx 2 t'.length ++ (o ++ (t' ++ r))) := by
      simpa using e
    obtain ⟨ea, e'⟩ := List.append_inj e' (by simp)
    obtain ⟨eb, e'⟩ := List.append_inj e' (by simp)
    obtain ⟨ec, e'⟩ := List.append_inj e' (inj _ _ (by omega) h1 ea)
    have ed := List.append_inj_left (s₁ := t) (t₁ := []) (by simpa using e') (inj _ _ (by omega) h2 eb)
    subst ec ed
    exact ⟨h3, h4⟩
  · exact absurd ⟨oid, t, [], by simp [makeAdata]⟩ h1

/-- C167. The lengths are computed in sixteen bits: additional data of 65536 octets can make `GetOidFromAdata` (and with it
`SignBytes` and `VerifyBytes`) fail on a slice out of range. -/
theorem C167_long_adata_violated : ∃ adata : Bytes, adata.length = 65536 ∧ getOid adata = .panic := by
  refine ⟨0xff#8 :: 0xfc#8 :: 0#8 :: 0#8 :: List.replicate 65532 0#8,
    by simp only [List.length_cons, List.length_replicate], ?_⟩
  have hl : (List.replicate 65532 (0#8)).length = 65532 := List.length_replicate
  generalize List.replicate 65532 (0#8) = z at *
  have e1 : u16 (0xff#8 :: 0xfc#8 :: 0#8 :: 0#8 :: z) 0 = 65532#16 := by
    show ((0xff#8).setWidth 16 <<< 8 ||| (0xfc#8).setWidth 16 : BitVec 16) = 65532#16
    decide
  have e2 : u16 (0xff#8 :: 0xfc#8 :: 0#8 :: 0#8 :: z) 2 = 0#16 := by
    show ((0#8).setWidth 16 <<< 8 ||| (0#8).setWidth 16 : BitVec 16) = 0#16
    decide
  rw [getOid, badAdata, e1, e2]
  simp [hl, slice]

/-- A small curve with half a field of one octet. -/
def toy16 : Curve := { toy with bitSize := 16, size := by decide }

/-- A hash function with two octets. -/
def toyHash2 : HashFn where
  f m := [m.foldl (fun a b => a * 3 + b) 5#8, m.foldl (· ^^^ ·) 0#8]
  size := 2
  block := 4
  pos := by decide
  len _ := rfl

/-- A small curve with half a field of two octets. -/
def toy32 : Curve :=
  { toy with bitSize := 32, P := 257, size := by decide, x_lt := fun a => Nat.lt_trans (toy.x_lt a) (by decide),
             y_lt := fun a => Nat.lt_trans (toy.y_lt a) (by decide) }

example : Spec.Sizes toy16 toyHash toyHash := ⟨by decide, by decide, by decide, by decide⟩
example : IsKeyPair toy16 3 (3 : ZMod 7) := ⟨by decide, by decide, show (3 : ZMod 7) = 3 • (1 : ZMod 7) by decide⟩
example : getOid (makeAdata [1, 2] [9]) = .ok [1, 2] := by decide
example : signBytes toy16 toyHash (fun _ b => b) (some [5]) ⟨3, (3 : ZMod 7)⟩ toyHash [1, 2] (makeAdata [1, 2] [9]) = .ok [0xc0, 4, 0] ∧
    verifyBytes toy16 toyHash (3 : ZMod 7) toyHash [1, 2] (makeAdata [1, 2] [9]) [0xc0, 4, 0] = .ok true ∧
    verifyBytes toy16 toyHash (3 : ZMod 7) toyHash [1, 2] (makeAdata [1, 2] [9]) [0xc0, 5, 0] = .ok false := by decide +kernel
example : nonce toy16 toyHash (fun _ b => b) (some [7, 5]) 3 (makeAdata [1, 2] [9]) [1] = .ok 5 := by decide +kernel
example : nonceLoop (fun b => b.map (· * 5 + 3)) 7 3 2 9 1 (List.replicate 96 1#8) = .ok 3 := by decide +kernel

/-- C167. A signature with `S1 = 0`, valid in the standard, is returned by `SignBytes` and rejected by `VerifyBytes`. -/
theorem C167_zero_violated : ∃ (c : Curve) (B H : HashFn) (d : Nat) (Q : c.α) (rd msg adata sig : Bytes), Spec.Sizes c B H ∧
    IsKeyPair c d Q ∧ signBytes c B (fun _ b => b) (some rd) ⟨d, Q⟩ H msg adata = .ok sig ∧ verifyBytes c B Q H msg adata sig = .ok false :=
  ⟨toy16, toyHash, toyHash, 3, (3 : ZMod 7), [6], [1, 2], makeAdata [1, 2] [9], [0xa8, 0, 0], ⟨by decide, by decide, by decide, by decide⟩,
    ⟨by decide, by decide, show (3 : ZMod 7) = 3 • (1 : ZMod 7) by decide⟩, by decide +kernel, by decide +kernel⟩

/-- C167. With a hash function of fewer than `l` octets (the code provides for it) `SignToRS` returns a signature on which
`VerifyWithRS` fails, and `SignBytes` fails. -/
theorem C167_short_hash_violated : ∃ (c : Curve) (B H : HashFn) (d : Nat) (Q : c.α) (rd msg adata : Bytes) (r s : Nat),
    H.size < c.plen / 2 ∧ IsKeyPair c d Q ∧ signToRS c B (fun _ b => b) (some rd) ⟨d, Q⟩ H msg adata = .ok (r, s) ∧
    verifyWithRS c B Q H msg adata r s = .panic ∧ signBytes c B (fun _ b => b) (some rd) ⟨d, Q⟩ H msg adata = .panic :=
  ⟨toy32, toyHash2, toyHash, 3, (3 : ZMod 7), [5], [1, 2], makeAdata [1, 2] [9], 36352, 100663296, by decide,
    ⟨by decide, by decide, show (3 : ZMod 7) = 3 • (1 : ZMod 7) by decide⟩, by decide +kernel, by decide +kernel, by decide +kernel⟩

end Verif.Pub.Bign
