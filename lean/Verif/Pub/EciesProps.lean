import Verif.Pub.Ecies
import Verif.Pub.DhProps
/-
C112: ECIES.  The theorems; the model is in Ecies.lean.
-/
namespace Verif.Pub.Ecies
open Verif.Cipher Verif.Kdf Verif.Pub.Dh

/-- NIST SP 800-56 concatenation key derivation: the first `len` bytes of `H(1 ‖ z ‖ s1) ‖ H(2 ‖ z ‖ s1) ‖ …`, `n` hashes. -/
def Spec.kdf (H : HashFn) (z s1 : Bytes) (n len : Nat) : Bytes :=
  ((List.range n).flatMap fun i => H.f (hx 4 (i + 1) ++ z ++ s1)).take len

/-- The secret as `k` bytes: the number modulo `256 ^ k`, big endian. -/
def Spec.sharedSecret (x k : Nat) : Bytes := hx k (x % 256 ^ k)

/-- What the parameters must be: a block cipher that takes keys of `KeyLen` bytes. -/
structure Spec.Good (p : Params) : Prop where
  bs_pos : 0 < p.bs
  accepts : ∀ k, k.length = p.keyLen → ∃ e, p.cipher k = some e
  block : ∀ k e b, p.cipher k = some e → b.length = p.bs → (e b).length = p.bs

/-- The number of hashes `concatKDF` takes for `2 · KeyLen` bytes. -/
def hashes (p : Params) : Nat := (p.keyLen + p.keyLen + 7) * 8 / (p.H.block * 8) + 1

/-- What the derived bytes, and the counter, must fit in. -/
def Spec.Enough (p : Params) : Prop := 2 * p.keyLen ≤ hashes p * p.H.size ∧ hashes p < 2 ^ 32

/-- The encryption key and the key of the tag that the point `S` gives. -/
def Spec.keys (c : PtCurve) (p : Params) (S : c.α) (s1 : Bytes) : Bytes × Bytes :=
  let K := Spec.kdf p.H (Spec.sharedSecret (c.x S) (2 * p.keyLen)) s1 (hashes p) (2 * p.keyLen)
  (K.take p.keyLen, p.H.f (K.drop p.keyLen))

theorem kdfLoop_eq (H : HashFn) (z s1 : Bytes) : ∀ n i k, i + n ≤ 2 ^ 32 → kdfLoop H z s1 n (BitVec.ofNat 32 i) k =
    k ++ (List.range n).flatMap fun j => H.f (hx 4 (i + j) ++ z ++ s1) := by
  intro n
  induction n with
  | zero => intro i k _; simp [kdfLoop]
  | succ n ih =>
    intro i k h
    rw [kdfLoop, incCounter, show BitVec.ofNat 32 i + 1 = BitVec.ofNat 32 (i + 1) by rw [BitVec.ofNat_add]; rfl, ih (i + 1) _ (by omega), BitVec.toNat_ofNat,
      Nat.mod_eq_of_lt (by omega), List.range_succ_eq_map, List.flatMap_cons, List.flatMap_map, List.append_assoc]
    simp only [Nat.add_zero, Nat.succ_eq_add_one]
    congr 3
    funext j
    rw [Nat.add_right_comm, Nat.add_assoc]

theorem flat_length (H : HashFn) (z s1 : Bytes) (n : Nat) : ((List.range n).flatMap fun i => H.f (hx 4 (1 + i) ++ z ++ s1)).length = n * H.size := by
  simp [List.length_flatMap, H.len]

/-- C112. `concatKDF` is the concatenation key derivation, or panics when it takes too few hashes for the bytes asked for. -/
theorem C112_kdf (H : HashFn) (z s1 : Bytes) (len : Nat) (h : (len + 7) * 8 / (H.block * 8) + 1 < 2 ^ 32) :
    concatKDF H z s1 len = (if len ≤ ((len + 7) * 8 / (H.block * 8) + 1) * H.size then .ok (Spec.kdf H z s1 ((len + 7) * 8 / (H.block * 8) + 1) len) else .panic) := by
  rw [concatKDF, Spec.kdf]
  simp only
  rw [if_neg (by omega), show (1 : BitVec 32) = BitVec.ofNat 32 1 from rfl, kdfLoop_eq _ _ _ _ 1 _ (by omega), List.nil_append, flat_length]
  simp only [Nat.add_comm 1]
  generalize (len + 7) * 8 / (H.block * 8) + 1 = n
  by_cases hl : len ≤ n * H.size
  · rw [if_neg (by omega), if_pos hl]
  · rw [if_pos (by omega), if_neg hl]

theorem shared_eq (c : PtCurve) (d : Nat) (Q : c.α) (k : Nat) (hk : 2 * k ≤ c.plen) : shared c d Q k k = .ok (Spec.sharedSecret (c.x (d • Q)) (2 * k)) := by
  rw [shared, if_neg (by omega), Curve.mult_eq]
  simp only
  generalize c.x (d • Q) = v
  rw [Spec.sharedSecret, ← two_mul]
  by_cases h : (natBytes v).length > 2 * k
  · rw [if_pos h]
    congr 1
    have hl : ((natBytes v).drop ((natBytes v).length - 2 * k)).length = 2 * k := by rw [List.length_drop]; omega
    conv_lhs => rw [← hx_setBytes ((natBytes v).drop ((natBytes v).length - 2 * k)), hl]
    congr 1
    have := setBytes_append ((natBytes v).take ((natBytes v).length - 2 * k)) ((natBytes v).drop ((natBytes v).length - 2 * k))
    rw [List.take_append_drop, setBytes_natBytes, hl] at this
    have hlt := setBytes_lt ((natBytes v).drop ((natBytes v).length - 2 * k))
    rw [hl] at hlt
    generalize setBytes ((natBytes v).drop ((natBytes v).length - 2 * k)) = w at *
    generalize setBytes ((natBytes v).take ((natBytes v).length - 2 * k)) = u at *
    rw [this, Nat.add_mod, Nat.mul_mod_left, Nat.zero_add, Nat.mod_mod, Nat.mod_eq_of_lt hlt]
  · rw [if_neg h]
    congr 1
    have hv : v < 256 ^ (2 * k) := by
      have := setBytes_lt (natBytes v)
      rw [setBytes_natBytes] at this
      exact Nat.lt_of_lt_of_le this (Nat.pow_le_pow_right (by omega) (by omega))
    rw [Nat.mod_eq_of_lt hv]
    have hs : setBytes (List.replicate (2 * k - (natBytes v).length) 0#8 ++ natBytes v) = v := by
      rw [setBytes_append, setBytes_natBytes]
      have hr : ∀ n, leN (List.replicate n 0#8) = 0 := by
        intro n; induction n with
        | zero => rfl
        | succ n ih => rw [List.replicate_succ, leN, ih]; rfl
      rw [setBytes, Kb.beN, List.reverse_replicate, hr]; omega
    conv_lhs => rw [← hx_setBytes (List.replicate (2 * k - (natBytes v).length) 0#8 ++ natBytes v), hs]
    congr 1
    simp only [List.length_append, List.length_replicate]; omega

theorem ctrStream_length (e : Bytes → Bytes) (bs : Nat) (he : ∀ b, b.length = bs → (e b).length = bs) : ∀ n iv, (ctrStream e bs iv n).length = n * bs := by
  intro n
  induction n with
  | zero => intro iv; simp [ctrStream]
  | succ n ih => intro iv; rw [ctrStream, List.length_append, ih, he _ (hx_length _ _)]; ring

theorem ctr_length (e : Bytes → Bytes) (bs : Nat) (h0 : 0 < bs) (he : ∀ b, b.length = bs → (e b).length = bs) (iv m : Bytes) : (ctr e bs iv m).length = m.length := by
  rw [ctr, xorb_length, ctrStream_length e bs he]
  exact Nat.min_eq_left (Nat.le_mul_of_pos_right _ h0)

theorem ctr_ctr (e : Bytes → Bytes) (bs : Nat) (h0 : 0 < bs) (he : ∀ b, b.length = bs → (e b).length = bs) (iv m : Bytes) : ctr e bs iv (ctr e bs iv m) = m := by
  have hl := ctr_length e bs h0 he iv m
  rw [ctr, hl, ctr]
  refine xorb_xorb_cancel_right _ _ ?_
  rw [ctrStream_length e bs he]
  exact Nat.le_mul_of_pos_right _ h0

theorem kdf_length (p : Params) (he : Spec.Enough p) (z s1 : Bytes) : (Spec.kdf p.H z s1 (hashes p) (2 * p.keyLen)).length = 2 * p.keyLen := by
  have := flat_length p.H z s1 (hashes p)
  simp only [Nat.add_comm 1] at this
  rw [Spec.kdf, List.length_take, this]
  have := he.1
  omega

theorem concatKDF_eq (p : Params) (he : Spec.Enough p) (z s1 : Bytes) :
    concatKDF p.H z s1 (p.keyLen + p.keyLen) = .ok (Spec.kdf p.H z s1 (hashes p) (2 * p.keyLen)) := by
  have h1 := he.1
  rw [C112_kdf _ _ _ _ he.2, if_pos (by rw [hashes] at h1; omega), hashes, two_mul]

theorem point_marshal (c : PtCurve) (a : c.α) (ha : a ≠ 0) : point c (marshal c a) = some a := by
  rw [point, unmarshal_marshal]
  simp only
  rw [if_pos ⟨c.x_lt a, c.y_lt a⟩, c.pt_coord a ha]

theorem point_some (c : PtCurve) (b : Bytes) (a : c.α) (h : point c b = some a) : a ≠ 0 ∧ b = marshal c a := by
  rw [point] at h
  cases hu : unmarshal c b with
  | none => rw [hu] at h; cases h
  | some uv =>
    obtain ⟨u, v⟩ := uv
    rw [hu] at h
    simp only at h
    by_cases hp : u < c.P ∧ v < c.P
    · rw [if_pos hp] at h
      obtain ⟨h1, rfl, rfl⟩ := c.pt_some _ _ _ h
      exact ⟨h1, unmarshal_some c b _ _ hu⟩
    · rw [if_neg hp] at h; cases h

/-- The ciphertext: the ephemeral point, the vector and the encrypted message, the tag. -/
theorem decrypt_eq (C : PtCurve) (p : Params) (hk : 2 * p.keyLen ≤ C.plen) (he : Spec.Enough p) (d : Nat) (R : C.α) (hR : R ≠ 0) (em tag s1 s2 : Bytes) (h1 : em ≠ [])
    (ht : tag.length = p.H.size) : decrypt C p d (marshal C R ++ em ++ tag) s1 s2 =
      if tag ≠ hmac p.H (Spec.keys C p (d • R) s1).2 (em ++ s2) then .err else symDecrypt p (Spec.keys C p (d • R) s1).1 em := by
  have hm := marshal_length C R
  have h2 : 0 < em.length := List.length_pos_iff.mpr h1
  have hlen : (marshal C R ++ em ++ tag).length = 1 + 2 * C.plen + em.length + p.H.size := by simp only [List.length_append, hm, ht]
  have e1 : (marshal C R ++ em ++ tag).take (1 + 2 * C.plen) = marshal C R := by rw [List.append_assoc, List.take_left' hm]
  have hme : (marshal C R ++ em).length = (marshal C R ++ em ++ tag).length - p.H.size := by simp only [List.length_append, hm, ht]; omega
  have e2 : (marshal C R ++ em ++ tag).take ((marshal C R ++ em ++ tag).length - p.H.size) = marshal C R ++ em := List.take_left' hme
  have e3 : (marshal C R ++ em ++ tag).drop ((marshal C R ++ em ++ tag).length - p.H.size) = tag := List.drop_left' hme
  have e4 : (marshal C R ++ em).drop (1 + 2 * C.plen) = em := List.drop_left' hm
  have hc : marshal C R ++ em ++ tag = 4#8 :: (hx C.plen (C.x R) ++ hx C.plen (C.y R) ++ em ++ tag) := by simp [marshal]
  generalize marshal C R ++ em ++ tag = c at *
  rw [hc, decrypt, ← hc]
  simp only
  rw [if_neg (by simp), if_neg (by omega), e1, point_marshal C R hR]
  simp only [shared_eq C d R p.keyLen hk, concatKDF_eq p he, Res.bind_ok, e2, e3, e4, messageTag, Spec.keys]
  rfl

/-- C112. For every curve, parameters, key pair, ephemeral key, initialisation vector, shared information and message that is not empty:
`Encrypt` gives a ciphertext, and `Decrypt` with the private key gives the message back. -/
theorem C112_roundtrip_partial (c : PtCurve) (p : Params) (hg : Spec.Good p) (hk : 2 * p.keyLen ≤ c.plen) (he : Spec.Enough p) (d r : Nat) (hr : 1 ≤ r ∧ r < c.N)
    (iv : Bytes) (hiv : iv.length = p.bs) (m s1 s2 : Bytes) (hm : m ≠ []) :
    ∃ ct, encrypt c p r iv (d • c.G) m s1 s2 = .ok (some ct) ∧ decrypt c p d ct s1 s2 = .ok m ∧ ct.length = 1 + 2 * c.plen + p.bs + m.length + p.H.size := by
  have hR : r • c.G ≠ 0 := c.toCurve.smul_ne_zero (c.toCurve.not_dvd hr.1 hr.2)
  have hm0 : 0 < m.length := List.length_pos_iff.mpr hm
  have hkl : (Spec.keys c p (r • d • c.G) s1).1.length = p.keyLen := by
    rw [Spec.keys]; simp only
    rw [List.length_take, kdf_length p he]; omega
  obtain ⟨e, hce⟩ := hg.accepts _ hkl
  have hbl := fun b => hg.block _ e b hce
  have hcl := ctr_length e p.bs hg.bs_pos hbl iv m
  have hsw : d • r • c.G = r • d • c.G := by rw [← mul_smul, ← mul_smul, Nat.mul_comm]
  refine ⟨marshal c (r • c.G) ++ (iv ++ ctr e p.bs iv m) ++ hmac p.H (Spec.keys c p (r • d • c.G) s1).2 (iv ++ ctr e p.bs iv m ++ s2), ?_, ?_, ?_⟩
  · rw [encrypt, shared_eq c r _ p.keyLen hk, Res.bind_ok, concatKDF_eq p he, Res.bind_ok]
    simp only
    have : symEncrypt p iv (List.take p.keyLen (Spec.kdf p.H (Spec.sharedSecret (c.x (r • d • c.G)) (2 * p.keyLen)) s1 (hashes p) (2 * p.keyLen))) m = .ok (iv ++ ctr e p.bs iv m) := by
      rw [Spec.keys] at hce
      simp only at hce
      rw [symEncrypt, hce]
    rw [this, Res.bind_ok, if_neg (by simp only [List.length_append]; omega), Curve.baseMult_eq, messageTag, Spec.keys]
  · rw [decrypt_eq c p hk he d (r • c.G) hR _ _ _ _ (fun h => by have := congrArg List.length h; simp only [List.length_append, List.length_nil] at this; omega) (hmac_length _ _ _), hsw, if_neg (by simp),
      symDecrypt, hce]
    simp only
    rw [if_neg (by simp only [List.length_append]; omega), List.take_left' hiv, List.drop_left' hiv, ctr_ctr e p.bs hg.bs_pos hbl]
  · simp only [List.length_append, marshal_length, hcl, hiv, hmac_length]; omega

/-- C112. What `Decrypt` accepts, for every byte string: the encoding of a point of the curve, an encrypted message and the tag of this
message under the key that the point gives.  The result is the message. -/
theorem C112_decrypt (c : PtCurve) (p : Params) (hk : 2 * p.keyLen ≤ c.plen) (he : Spec.Enough p) (d : Nat) (ct s1 s2 m : Bytes)
    (h : decrypt c p d ct s1 s2 = .ok m) : ∃ (R : c.α) (iv x : Bytes) (e : Bytes → Bytes), R ≠ 0 ∧ iv.length = p.bs ∧ p.cipher (Spec.keys c p (d • R) s1).1 = some e ∧ m = ctr e p.bs iv x ∧
      ct = marshal c R ++ (iv ++ x) ++ hmac p.H (Spec.keys c p (d • R) s1).2 (iv ++ x ++ s2) := by
  cases ct with
  | nil => cases h
  | cons c0 t =>
    have h' := h
    rw [decrypt] at h'
    simp only at h'
    by_cases g1 : c0 ≠ 2 ∧ c0 ≠ 3 ∧ c0 ≠ 4
    · rw [if_pos g1] at h'; cases h'
    rw [if_neg g1] at h'
    by_cases g2 : (c0 :: t).length < 1 + 2 * c.plen + p.H.size + 1
    · rw [if_pos g2] at h'; cases h'
    rw [if_neg g2] at h'
    generalize hc : c0 :: t = ct at h h' g2
    cases hp : point c (ct.take (1 + 2 * c.plen)) with
    | none => rw [hp] at h'; cases h'
    | some R =>
      obtain ⟨hR, hmR⟩ := point_some c _ _ hp
      have hsplit : ct = marshal c R ++ (ct.take (ct.length - p.H.size)).drop (1 + 2 * c.plen) ++ ct.drop (ct.length - p.H.size) := by
        conv_lhs => rw [← List.take_append_drop (ct.length - p.H.size) ct]
        congr 1
        conv_lhs => rw [← List.take_append_drop (1 + 2 * c.plen) (ct.take (ct.length - p.H.size))]
        rw [List.take_take, Nat.min_eq_left (by omega), hmR]
      have hl1 : ((ct.take (ct.length - p.H.size)).drop (1 + 2 * c.plen)) ≠ [] := by
        rw [← List.length_pos_iff, List.length_drop, List.length_take]; omega
      have hl2 : (ct.drop (ct.length - p.H.size)).length = p.H.size := by rw [List.length_drop]; omega
      generalize (ct.take (ct.length - p.H.size)).drop (1 + 2 * c.plen) = em at hsplit hl1
      generalize ct.drop (ct.length - p.H.size) = tag at hsplit hl2
      rw [hsplit, decrypt_eq c p hk he d R hR em tag s1 s2 hl1 hl2] at h
      by_cases ht : tag ≠ hmac p.H (Spec.keys c p (d • R) s1).2 (em ++ s2)
      · rw [if_pos ht] at h; cases h
      rw [if_neg ht, symDecrypt] at h
      cases hce : p.cipher (Spec.keys c p (d • R) s1).1 with
      | none => rw [hce] at h; cases h
      | some e =>
        rw [hce] at h
        simp only at h
        by_cases hb : em.length < p.bs
        · rw [if_pos hb] at h; cases h
        rw [if_neg hb] at h
        refine ⟨R, em.take p.bs, em.drop p.bs, e, hR, by rw [List.length_take]; omega, hce, (Res.ok.inj h).symm, ?_⟩
        rw [List.take_append_drop, ← not_ne_iff.mp ht]
        exact hsplit

/-- C112. Ciphertexts that are too short or do not begin with 4 (the encoding of a point without compression) give an error, whatever the key. -/
theorem C112_reject (c : PtCurve) (p : Params) (d : Nat) (ct s1 s2 : Bytes) (h : ct.length ≤ 1 + 2 * c.plen + p.H.size ∨ ct.head? ≠ some 4#8) :
    decrypt c p d ct s1 s2 = .err := by
  cases ct with
  | nil => rfl
  | cons c0 t =>
    rw [decrypt]
    simp only
    by_cases g1 : c0 ≠ 2 ∧ c0 ≠ 3 ∧ c0 ≠ 4
    · rw [if_pos g1]
    rw [if_neg g1]
    by_cases g2 : (c0 :: t).length < 1 + 2 * c.plen + p.H.size + 1
    · rw [if_pos g2]
    rw [if_neg g2]
    have h4 := h.resolve_left (by omega)
    have : point c (List.take (1 + 2 * c.plen) (c0 :: t)) = none := by
      have hu : unmarshal c (List.take (1 + 2 * c.plen) (c0 :: t)) = none := by
        rw [unmarshal, show 1 + 2 * c.plen = 2 * c.plen + 1 by omega, List.take_succ_cons, if_pos (c := List.head? _ ≠ _) (by simpa using h4)]
        split <;> rfl
      rw [point, hu]
    rw [this]

/-- The sizes of the parameter sets of the package: the size and the block of the hash, the length of the key. -/
def paramSets : List (Nat × Nat × Nat) := [(32, 64, 16), (48, 128, 24), (32, 64, 32), (64, 128, 32)]

/-- C112. The parameter sets AES128_SHA256, AES192_SHA384, AES256_SHA256 and AES256_SHA512 derive enough bytes. -/
theorem C112_params (p : Params) (h : (p.H.size, p.H.block, p.keyLen) ∈ paramSets) : Spec.Enough p := by
  simp only [paramSets, List.mem_cons, List.not_mem_nil, or_false, Prod.mk.injEq] at h
  rcases h with ⟨h1, h2, h3⟩ | ⟨h1, h2, h3⟩ | ⟨h1, h2, h3⟩ | ⟨h1, h2, h3⟩ <;> simp only [Spec.Enough, hashes, h1, h2, h3] <;> decide

/-- C112, violation: with the parameter set AES256_SHA384 (`size = 48`, `block = 128`, `keyLen = 32`) `Encrypt` panics for every key of a curve with
coordinates of at least 64 bytes and every message; on smaller curves it gives an error. -/
theorem C112_sha384_violated (c : PtCurve) (p : Params) (h1 : p.H.size = 48) (h2 : p.H.block = 128) (h3 : p.keyLen = 32) (r : Nat) (iv : Bytes) (Q : c.α) (m s1 s2 : Bytes) :
    (64 ≤ c.plen → encrypt c p r iv Q m s1 s2 = .panic) ∧ (c.plen < 64 → encrypt c p r iv Q m s1 s2 = .err) := by
  refine ⟨fun h => ?_, fun h => ?_⟩
  · rw [encrypt, shared_eq c r Q p.keyLen (by omega), Res.bind_ok, C112_kdf _ _ _ _ (by rw [h2, h3]; decide), if_neg (by rw [h1, h2, h3]; decide)]
    rfl
  · rw [encrypt, shared, if_pos (by omega)]
    rfl

/-- C112, violation: the empty message has no ciphertext; `Encrypt` gives a nil slice and no error. -/
theorem C112_empty_violated (c : PtCurve) (p : Params) (hg : Spec.Good p) (hk : 2 * p.keyLen ≤ c.plen) (he : Spec.Enough p) (r : Nat)
    (iv : Bytes) (hiv : iv.length = p.bs) (Q : c.α) (s1 s2 : Bytes) : encrypt c p r iv Q [] s1 s2 = .ok none := by
  have hkl : (Spec.keys c p (r • Q) s1).1.length = p.keyLen := by
    rw [Spec.keys]; simp only
    rw [List.length_take, kdf_length p he]; omega
  obtain ⟨e, hce⟩ := hg.accepts _ hkl
  rw [encrypt, shared_eq c r _ p.keyLen hk, Res.bind_ok, concatKDF_eq p he, Res.bind_ok]
  simp only
  have : symEncrypt p iv (List.take p.keyLen (Spec.kdf p.H (Spec.sharedSecret (c.x (r • Q)) (2 * p.keyLen)) s1 (hashes p) (2 * p.keyLen))) [] = .ok iv := by
    rw [Spec.keys] at hce
    simp only at hce
    rw [symEncrypt, hce]
    simp [ctr]
  rw [this, Res.bind_ok, if_pos (by omega)]

/-- C112, violation: anyone who knows the public key `Q = d • G` can make a ciphertext on which `Decrypt` panics: a point, fewer bytes than a
block, and their tag. -/
theorem C112_short_violated (c : PtCurve) (p : Params) (hg : Spec.Good p) (hk : 2 * p.keyLen ≤ c.plen) (he : Spec.Enough p) (d r : Nat) (hr : 1 ≤ r ∧ r < c.N)
    (em : Bytes) (h0 : em ≠ []) (h1 : em.length < p.bs) (s1 s2 : Bytes) :
    decrypt c p d (marshal c (r • c.G) ++ em ++ hmac p.H (Spec.keys c p (r • d • c.G) s1).2 (em ++ s2)) s1 s2 = .panic := by
  have hR : r • c.G ≠ 0 := c.toCurve.smul_ne_zero (c.toCurve.not_dvd hr.1 hr.2)
  have hsw : d • r • c.G = r • d • c.G := by rw [← mul_smul, ← mul_smul, Nat.mul_comm]
  have hkl : (Spec.keys c p (r • d • c.G) s1).1.length = p.keyLen := by
    rw [Spec.keys]; simp only
    rw [List.length_take, kdf_length p he]; omega
  obtain ⟨e, hce⟩ := hg.accepts _ hkl
  rw [decrypt_eq c p hk he d _ hR _ _ _ _ h0 (hmac_length _ _ _), hsw, if_neg (by simp), symDecrypt, hce]
  simp only
  rw [if_pos h1]

/-- C112, violation: the tag does not separate the message from the shared information.  A ciphertext of `m ++ t` made with `s2` is, without the last bytes
of the encrypted message, a ciphertext of `m` for other shared information: nobody had encrypted `m`. -/
theorem C112_shift_violated (c : PtCurve) (p : Params) (hg : Spec.Good p) (hk : 2 * p.keyLen ≤ c.plen) (he : Spec.Enough p) (d r : Nat) (hr : 1 ≤ r ∧ r < c.N)
    (iv : Bytes) (hiv : iv.length = p.bs) (m t s1 s2 : Bytes) (hm : m ≠ []) : ∃ front y tag : Bytes, y.length = t.length ∧
      encrypt c p r iv (d • c.G) (m ++ t) s1 s2 = .ok (some (front ++ y ++ tag)) ∧ decrypt c p d (front ++ tag) s1 (y ++ s2) = .ok m := by
  obtain ⟨ct, h1, h2, h3⟩ := C112_roundtrip_partial c p hg hk he d r hr iv hiv (m ++ t) s1 s2 (by simp [hm])
  obtain ⟨R, iv', x, e, hR, hiv', hce, hmx, rfl⟩ := C112_decrypt c p hk he d ct s1 s2 (m ++ t) h2
  have hbl := fun b => hg.block _ e b hce
  have hxl : x.length = m.length + t.length := by
    have := congrArg List.length hmx
    rw [ctr_length e p.bs hg.bs_pos hbl, List.length_append] at this
    exact this.symm
  have hm0 : 0 < m.length := List.length_pos_iff.mpr hm
  refine ⟨marshal c R ++ (iv' ++ x.take m.length), x.drop m.length, hmac p.H (Spec.keys c p (d • R) s1).2 (iv' ++ x ++ s2), by rw [List.length_drop]; omega, ?_, ?_⟩
  · rw [h1]; simp only [List.append_assoc]
    rw [← List.append_assoc (x.take m.length), List.take_append_drop]
  · rw [decrypt_eq c p hk he d R hR _ _ _ _ (fun h => by have := congrArg List.length h; simp only [List.length_append, List.length_take, List.length_nil] at this; omega) (hmac_length _ _ _), if_neg, symDecrypt, hce]
    · simp only
      rw [if_neg (by simp only [List.length_append]; omega), List.take_left' hiv', List.drop_left' hiv']
      congr 1
      have hpre : ∀ (a b : Bytes) (n k : Nat), ctrStream e p.bs n (k + b.length) = ctrStream e p.bs n k ++ ctrStream e p.bs (n + k) b.length := by
        intro a b n k
        induction k generalizing n with
        | zero => simp [ctrStream]
        | succ k ih => rw [Nat.add_right_comm, ctrStream, ih, ctrStream, List.append_assoc]; congr 3; omega
      have := congrArg (List.take m.length) hmx
      rw [List.take_left, ctr, xorb_take] at this
      rw [ctr]
      have hL : ∀ (a s s' : Bytes), a.length ≤ s.length → xorb a (s ++ s') = xorb a s := by
        intro a s s' h
        have := xorb_append a [] s s'
        induction a generalizing s with
        | nil => rfl
        | cons a0 a ih => cases s with
          | nil => simp at h
          | cons s0 s => simp only [List.cons_append, xorb_cons]; rw [ih s (by simpa using h) (xorb_append a [] s s')]
      have hxt : (x.take m.length).length = m.length := by rw [List.length_take]; omega
      rw [hxt]
      refine Eq.trans ?_ this.symm
      have hxx : x.length = m.length + (x.drop m.length).length := by rw [List.length_drop]; omega
      conv_rhs => rw [hxx, hpre [] (x.drop m.length)]
      have hs : m.length ≤ (ctrStream e p.bs (setBytes iv') m.length).length := by
        rw [ctrStream_length e p.bs hbl]; exact Nat.le_mul_of_pos_right _ hg.bs_pos
      rw [List.take_append_of_le_length hs]
      conv_lhs => rw [← List.take_append_drop m.length (ctrStream e p.bs (setBytes iv') m.length)]
      exact hL _ _ _ (by rw [hxt, List.length_take]; omega)
    · have : iv' ++ x ++ s2 = iv' ++ x.take m.length ++ (x.drop m.length ++ s2) := by
        simp only [List.append_assoc]
        rw [← List.append_assoc (x.take m.length), List.take_append_drop]
      rw [this]; simp

/-! ### An instance -/

/-- The small curve with coordinates of two bytes. -/
def toyPt2 : PtCurve := { toyPt with bitSize := 16, size := by decide }

/-- Keys of one byte, blocks of two. -/
def toyParams : Params where
  H := toyHash
  cipher k := if k.length = 1 then some fun b => b.map fun v => v * 3#8 + (k.headD 0) else none
  bs := 2
  keyLen := 1

theorem toyGood : Spec.Good toyParams where
  bs_pos := by decide
  accepts k h := ⟨_, if_pos h⟩
  block k e b h hb := by
    by_cases hk : k.length = 1
    · have : some _ = some e := (if_pos hk).symm.trans h
      obtain rfl := Option.some.inj this
      simpa using hb
    · have : none = some e := (if_neg hk).symm.trans h
      cases this

example : Spec.Enough toyParams ∧ 2 * toyParams.keyLen ≤ toyPt2.plen := ⟨⟨by decide +kernel, by decide +kernel⟩, by decide +kernel⟩

example : ∃ ct, encrypt toyPt2 toyParams 3 [7, 9] (2 • toyPt2.G) [1, 2, 3] [5] [6] = .ok (some ct) ∧ decrypt toyPt2 toyParams 2 ct [5] [6] = .ok [1, 2, 3] ∧
    decrypt toyPt2 toyParams 2 ct [5] [7] = .err :=
  ⟨_, rfl, by decide +kernel, by decide +kernel⟩

end Verif.Pub.Ecies
