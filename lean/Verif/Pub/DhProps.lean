import Verif.Pub.Dh
import Verif.Pub.RabinProps
/-
C111: Diffie-Hellman key agreement (pubkey/dh/dh, pubkey/dh/ecdh, pubkey/dh/curve25519).
-/
namespace Verif.Pub.Dh
open Verif.Cipher Verif.Kdf Verif.Pub.ElGamal

/-! ### Modular groups -/

/-- A key pair over the group with modulus `P` and generator `G`. -/
def Spec.IsDh (P G : Nat) (k : DhKey) : Prop := k.P = P ∧ k.G = G ∧ k.Y = G ^ k.X % P

/-- C111. Two parties with keys over one group compute the same secret, the bytes of `G^(x·x')` modulo `P`. -/
theorem C111_agree (P G : Nat) (a b : DhKey) (ha : Spec.IsDh P G a) (hb : Spec.IsDh P G b) :
    secret a b.Y = secret b a.Y ∧ setBytes (secret a b.Y) = G ^ (a.X * b.X) % P := by
  obtain ⟨rfl, rfl, ha3⟩ := ha
  obtain ⟨hb1, hb2, hb3⟩ := hb
  have e1 : expMod b.Y a.X a.P = a.G ^ (a.X * b.X) % a.P := by
    rw [expMod, hb3, ← Nat.pow_mod, ← pow_mul, Nat.mul_comm]
  have e2 : expMod a.Y b.X b.P = a.G ^ (a.X * b.X) % a.P := by
    rw [expMod, ha3, hb1, ← Nat.pow_mod, ← pow_mul]
  rw [secret, secret, e1, e2, setBytes_natBytes]
  exact ⟨rfl, rfl⟩

theorem genLoop_spec (P len : Nat) (hl : 0 < len) : ∀ fuel rd, rd.length < fuel →
    genLoop P len fuel rd = .err ∨ ∃ x, genLoop P len fuel rd = .ok x ∧ bitLen P < x ∧ x < 256 ^ (len - 1)
  | 0, rd, h => by omega
  | fuel + 1, rd, h => by
    rw [genLoop]
    by_cases hr : rd.length < len
    · left; rw [if_pos hr]
    rw [if_neg hr]
    cases ht : rd.take len with
    | nil => have := congrArg List.length ht; rw [List.length_take, List.length_nil] at this; omega
    | cons b bytes =>
      have hb : bytes.length = len - 1 := by
        have := congrArg List.length ht; rw [List.length_take, List.length_cons] at this; omega
      have hv : setBytes (0#8 :: bytes) = setBytes bytes := by
        have := setBytes_append [0#8] bytes
        simpa [setBytes, Kb.beN, leN] using this
      simp only
      rw [show (0 : Byte) = 0#8 from rfl, hv]
      split
      · exact genLoop_spec P len hl fuel _ (by rw [List.length_drop]; omega)
      · refine .inr ⟨_, rfl, by omega, ?_⟩
        rw [← hb]; exact setBytes_lt bytes

/-- C111. `Check` accepts exactly the numbers in `[0, P)`. -/
theorem C111_check (P : Nat) (Y : Int) : check P Y = true ↔ 0 ≤ Y ∧ Y < P := by simp [check]

/-- C111. `GenerateKeyWithGroup`, for all groups and random sources: the error of the source, or a key pair with an exponent
above the number of bits of `P` and below `P`, and a public key that passes `Check`. -/
theorem C111_genKey (P G : Nat) (hP : 0 < P) (rd : Bytes) :
    genKey P G rd = .err ∨ ∃ k, genKey P G rd = .ok k ∧ Spec.IsDh P G k ∧ bitLen P < k.X ∧ k.X < P ∧ check P k.Y = true ∧ publicOf k = k.Y := by
  have hb : 0 < bitLen P := Nat.pos_of_ne_zero fun h => by rw [bitLen_eq_zero] at h; omega
  rw [genKey]
  rcases genLoop_spec P ((bitLen P + 7) / 8) (by omega) (rd.length + 1) rd (by omega) with h | ⟨x, h, h1, h2⟩
  · rw [h]; exact .inl rfl
  · rw [h]
    refine .inr ⟨_, rfl, ⟨rfl, rfl, rfl⟩, h1, ?_, ?_, rfl⟩
    · refine Nat.lt_of_lt_of_le h2 ?_
      rw [show (256 : Nat) = 2 ^ 8 from rfl, ← Nat.pow_mul]
      have h3 : 2 ^ (bitLen P - 1) ≤ P := by
        rw [bitLen, if_neg (by omega), Nat.add_sub_cancel]
        exact Nat.log2_self_le (by omega)
      refine le_trans (Nat.pow_le_pow_right (by decide) ?_) h3
      omega
    · have := Nat.mod_lt (G ^ x) hP
      rw [C111_check]
      exact ⟨Int.natCast_nonneg _, by exact_mod_cast this⟩

/-- C111, violation: modulo a number of at most eight bits no key is ever found. -/
theorem C111_genKey_violated (P G : Nat) (h0 : 0 < P) (hP : P < 256) (rd : Bytes) : genKey P G rd = .err := by
  have hb : bitLen P ≤ 8 := (Rabin.bitLen_le_iff P 8).mpr hP
  have hb0 : 0 < bitLen P := Nat.pos_of_ne_zero fun h => by rw [bitLen_eq_zero] at h; omega
  rw [genKey]
  rcases genLoop_spec P ((bitLen P + 7) / 8) (by omega) (rd.length + 1) rd (by omega) with h | ⟨x, h, h1, h2⟩
  · rw [h]; rfl
  · rw [show (bitLen P + 7) / 8 - 1 = 0 by omega, pow_zero] at h2
    omega

/-- C111, violation: `Check` accepts 0 and 1, with which the secret is the same for every private key. -/
theorem C111_check_violated (k : DhKey) (hP : 1 < k.P) (hX : 0 < k.X) :
    check k.P 0 = true ∧ secret k 0 = [] ∧ check k.P 1 = true ∧ secret k 1 = [1] := by
  refine ⟨by simp [check]; omega, ?_, by simp [check]; omega, ?_⟩
  · rw [secret, expMod, zero_pow (by omega), Nat.zero_mod]; rfl
  · rw [secret, expMod, one_pow, Nat.mod_eq_of_lt hP]; rfl

theorem pow_half (p : Nat) (hp : 2 < p) (h : Rabin.smLoop 2 ((p - 1) / 2) p (bitLen ((p - 1) / 2) - 1) 2 = 1) : 2 ^ ((p - 1) / 2) % p = 1 := by
  have h1 := Rabin.squareAndMultiple_eq 2 ((p - 1) / 2) p (by omega) (by omega)
  rw [Rabin.squareAndMultiple, if_neg (by omega), Nat.mod_eq_of_lt hp, h] at h1
  exact (Res.ok.inj h1).symm

/-- C111. In the groups up to 6144 bits the generator is 2 and has an order that divides `(P − 1)/2`; the modulus has the number of bits its
name says (those of the first two groups: 768 and 1024).  Missing: that the modulus is a prime, which is not shown here. -/
theorem C111_groups_partial : ∀ id P bits, (id, P, bits) ∈ [(1, p1001, 768), (2, p1002, 1024), (3, p1536, 1536), (4, p2048, 2048), (5, p3072, 3072), (6, p4096, 4096), (7, p6144, 6144)] →
    modGroup id = some (P, 2) ∧ bitLen P = bits ∧ P % 8 = 7 ∧ 2 ^ ((P - 1) / 2) % P = 1 := by
  intro id P bits h
  simp only [List.mem_cons, List.not_mem_nil, or_false, Prod.mk.injEq] at h
  rcases h with ⟨rfl, rfl, rfl⟩ | ⟨rfl, rfl, rfl⟩ | ⟨rfl, rfl, rfl⟩ | ⟨rfl, rfl, rfl⟩ | ⟨rfl, rfl, rfl⟩ | ⟨rfl, rfl, rfl⟩ | ⟨rfl, rfl, rfl⟩ <;>
    exact ⟨rfl, by decide +kernel, by decide +kernel, pow_half _ (by decide +kernel) (by decide +kernel)⟩

/-- C111, violation: the modulus of the group `P8192` has 8188 bits and is not a prime: 697127 divides it. -/
theorem C111_group8192_violated : modGroup 8 = some (p8192, 2) ∧ bitLen p8192 = 8188 ∧ 697127 ∣ p8192 ∧ ¬ p8192.Prime := by
  have hd : 697127 ∣ p8192 := Nat.dvd_of_mod_eq_zero (by decide +kernel)
  refine ⟨rfl, by decide +kernel, hd, fun hp => ?_⟩
  rcases (Nat.dvd_prime hp).mp hd with h | h
  · cases h
  · have : p8192 ≠ 697127 := by decide +kernel
    exact this h.symm

/-- C111, violation: the secret is written without leading zeros, so its length is not that of the modulus. -/
theorem C111_length_violated : ∃ a b : DhKey, Spec.IsDh 65537 3 a ∧ Spec.IsDh 65537 3 b ∧ (secret a b.Y).length ≠ (secret a a.Y).length :=
  ⟨{ P := 65537, G := 3, Y := 3, X := 1 }, { P := 65537, G := 3, Y := 3 ^ 20 % 65537, X := 20 }, ⟨rfl, rfl, rfl⟩, ⟨rfl, rfl, rfl⟩, by decide +kernel⟩

/-- Two generated keys. -/
example : genKey 65537 3 [9, 1, 2, 0, 0, 9] = .ok { P := 65537, G := 3, Y := 3 ^ 258 % 65537, X := 258 } ∧ genKey 65537 3 [9, 0, 9, 0, 0, 255] = .ok { P := 65537, G := 3, Y := 3 ^ 255 % 65537, X := 255 } := by
  decide +kernel

/-! ### Elliptic curves -/

theorem marshal_length (c : PtCurve) (a : c.α) : (marshal c a).length = 1 + 2 * c.plen := by simp [marshal]; omega

theorem unmarshal_marshal (c : PtCurve) (a : c.α) : unmarshal c (marshal c a) = some (c.x a, c.y a) := by
  have hx' := Nat.lt_of_lt_of_le (c.x_lt a) c.toCurve.P_le
  have hy' := Nat.lt_of_lt_of_le (c.y_lt a) c.toCurve.P_le
  rw [unmarshal, if_neg (by rw [marshal_length]; simp), if_neg (by simp [marshal])]
  have e1 : ((marshal c a).drop 1).take c.plen = hx c.plen (c.x a) := by
    rw [marshal, List.drop_succ_cons, List.drop_zero, List.take_left' (hx_length _ _)]
  have e2 : (marshal c a).drop (1 + c.plen) = hx c.plen (c.y a) := by
    rw [marshal, Nat.add_comm, List.drop_succ_cons, List.drop_left' (hx_length _ _)]
  rw [e1, e2, setBytes_hx _ _ hx', setBytes_hx _ _ hy']

theorem unmarshal_some (c : PtCurve) (data : Bytes) (u v : Nat) (h : unmarshal c data = some (u, v)) : data = 4#8 :: (hx c.plen u ++ hx c.plen v) := by
  rw [unmarshal] at h
  by_cases hl : data.length ≠ 1 + 2 * c.plen
  · rw [if_pos hl] at h; cases h
  rw [if_neg hl] at h
  by_cases h4 : data.head? ≠ some 4#8
  · rw [if_pos h4] at h; cases h
  rw [if_neg h4] at h
  simp only [ne_eq, not_not] at hl h4
  obtain ⟨rfl, rfl⟩ := Prod.mk.inj (Option.some.inj h)
  match data, h4 with
  | b :: rest, h4 =>
    simp only [List.head?_cons, Option.some.injEq] at h4
    subst h4
    have hl : rest.length = 2 * c.plen := by rw [List.length_cons] at hl; omega
    rw [List.drop_succ_cons, List.drop_zero, Nat.add_comm 1, List.drop_succ_cons]
    have l1 : (rest.take c.plen).length = c.plen := by rw [List.length_take]; omega
    have l2 : (rest.drop c.plen).length = c.plen := by rw [List.length_drop]; omega
    have e1 := hx_setBytes (rest.take c.plen)
    have e2 := hx_setBytes (rest.drop c.plen)
    rw [l1] at e1
    rw [l2] at e2
    rw [e1, e2, List.take_append_drop]

/-- C111. Two parties with private keys in `[1, N)` compute the same secret over an elliptic curve: the bytes of the first coordinate of `d·d'·G`. -/
theorem C111_ec_agree (c : PtCurve) (X X' : Bytes) (h0 : 0 < setBytes X) (h1 : setBytes X < c.N) (h0' : 0 < setBytes X') (h1' : setBytes X' < c.N) :
    ∃ Y Y' s, ecPublic c X = .ok Y ∧ ecPublic c X' = .ok Y' ∧ ecCheck c Y = .ok true ∧ ecSecret c X Y' = .ok s ∧ ecSecret c X' Y = .ok s ∧
      setBytes s = c.x ((setBytes X * setBytes X') • c.G) := by
  have hn : setBytes X • c.G ≠ 0 := c.toCurve.smul_ne_zero (c.toCurve.not_dvd h0 h1)
  have hn' : setBytes X' • c.G ≠ 0 := c.toCurve.smul_ne_zero (c.toCurve.not_dvd h0' h1')
  have sec (Z : Bytes) (a : c.α) (ha : a ≠ 0) : ecSecret c Z (marshal c a) = .ok (natBytes (c.x (setBytes Z • a))) := by
    rw [ecSecret, unmarshal_marshal]
    simp only
    rw [if_neg, c.pt_coord a ha]
    · simp
    · rintro ⟨e1, e2⟩
      have p1 := c.pt_coord a ha
      rw [e1, e2] at p1
      have h3 := c.isOn_coord a
      have h4 := c.isOn_coord 0
      rw [e1, e2] at h3
      rw [c.x_zero, c.y_zero] at h4
      rw [h3] at h4
      simp [ha] at h4
  refine ⟨marshal c (setBytes X • c.G), marshal c (setBytes X' • c.G), natBytes (c.x ((setBytes X * setBytes X') • c.G)), ?_, ?_, ?_, ?_, ?_, setBytes_natBytes _⟩
  · rw [ecPublic, if_neg (by omega)]
    simp only [Curve.baseMult_eq]
    rw [if_neg hn]
  · rw [ecPublic, if_neg (by omega)]
    simp only [Curve.baseMult_eq]
    rw [if_neg hn']
  · rw [ecCheck, unmarshal_marshal]
    simp only
    rw [c.pt_coord _ hn]; rfl
  · rw [sec _ _ hn', smul_smul]
  · rw [sec _ _ hn, smul_smul, Nat.mul_comm]

/-- C111. `Check` on the bytes of a pair of coordinates accepts exactly the points of the curve; and what it accepts `ComputeSecret` does not panic on. -/
theorem C111_ec_check (c : PtCurve) (Y : Bytes) :
    (ecCheck c Y = .ok true ↔ ∃ a : c.α, a ≠ 0 ∧ Y = marshal c a) ∧ (ecCheck c Y = .ok true → ∀ X, ∃ s, ecSecret c X Y = .ok s) := by
  have main : ecCheck c Y = .ok true ↔ ∃ a : c.α, a ≠ 0 ∧ Y = marshal c a := by
    constructor
    · intro h
      rw [ecCheck] at h
      cases hu : unmarshal c Y with
      | none => rw [hu] at h; cases h
      | some uv =>
        obtain ⟨u, v⟩ := uv
        rw [hu] at h
        simp only [Res.ok.injEq, Option.isSome_iff_exists] at h
        obtain ⟨a, ha⟩ := h
        obtain ⟨h1, h2, h3⟩ := c.pt_some u v a ha
        exact ⟨a, h1, by rw [unmarshal_some c Y u v hu, marshal, h2, h3]⟩
    · rintro ⟨a, ha, rfl⟩
      rw [ecCheck, unmarshal_marshal]
      simp only
      rw [c.pt_coord a ha]; rfl
  refine ⟨main, fun h X => ?_⟩
  obtain ⟨a, ha, rfl⟩ := main.mp h
  rw [ecSecret, unmarshal_marshal]
  simp only
  by_cases hz : c.x a = 0 ∧ c.y a = 0
  · rw [if_pos hz]; exact ⟨_, rfl⟩
  · rw [if_neg hz, c.pt_coord a ha]; exact ⟨_, rfl⟩

/-- C111, violation: on every byte string of another length, or with another first byte, `Check` and `ComputeSecret` panic instead of
reporting an error; and the pair `(0, 0)`, which is not on the curve, gives the empty secret whatever the private key. -/
theorem C111_ec_violated (c : PtCurve) :
    (∀ Y X : Bytes, Y.length ≠ 1 + 2 * c.plen ∨ Y.head? ≠ some 4#8 → ecCheck c Y = .panic ∧ ecSecret c X Y = .panic) ∧
    (∀ X : Bytes, ecSecret c X (4#8 :: List.replicate (2 * c.plen) 0#8) = .ok []) := by
  constructor
  · intro Y X h
    have : unmarshal c Y = none := by
      rw [unmarshal]
      by_cases hl : Y.length ≠ 1 + 2 * c.plen
      · rw [if_pos hl]
      · rw [if_neg hl, if_pos (h.resolve_left hl)]
    rw [ecCheck, ecSecret, this]
    exact ⟨rfl, rfl⟩
  · intro X
    have hz : (4#8 :: List.replicate (2 * c.plen) 0#8) = marshal c (0 : c.α) := by
      have h0 (n : Nat) : hx n 0 = List.replicate n 0#8 := by
        have hs : setBytes (List.replicate n 0#8) = 0 := by
          have hr : ∀ n, leN (List.replicate n 0#8) = 0 := by
            intro n; induction n with
            | zero => rfl
            | succ n ih => rw [List.replicate_succ, leN, ih]; rfl
          rw [setBytes, Kb.beN, List.reverse_replicate, hr]
        have := hx_setBytes (List.replicate n 0#8)
        rwa [hs, List.length_replicate] at this
      rw [marshal, c.x_zero, c.y_zero, h0, List.replicate_append_replicate, two_mul]
    rw [hz, ecSecret, unmarshal_marshal]
    simp only
    rw [if_pos ⟨c.x_zero, c.y_zero⟩]
    simp only [Curve.mult_eq, smul_zero, c.x_zero]
    rfl

/-- The small curve of `Verif/Pub/Ec.lean` with its points. -/
def toyPt : PtCurve where
  toCurve := toy
  pt u v := ([0, 1, 2, 3, 4, 5, 6] : List (ZMod 7)).find? fun a => a ≠ 0 ∧ toy.x a = u ∧ toy.y a = v
  pt_coord := by
    change ∀ a : ZMod 7, a ≠ 0 → List.find? (fun b : ZMod 7 => decide (b ≠ 0 ∧ toy.x b = toy.x a ∧ toy.y b = toy.y a)) [0, 1, 2, 3, 4, 5, 6] = some a
    decide
  pt_some u v a h := by
    have := List.find?_some h
    simpa using this
  x_zero := rfl
  y_zero := rfl

example : ecPublic toyPt [3] = .ok [4, 2, 6] ∧ ecPublic toyPt [2] = .ok [4, 5, 2] ∧ ecSecret toyPt [3] [4, 5, 2] = .ok [3] ∧ ecSecret toyPt [2] [4, 2, 6] = .ok [3] := by decide +kernel

/-! ### Curve25519 -/

/-- C111. `GenerateKey` fixes five bits of the private key and leaves the others: as a little-endian number it is `2^254` plus a
multiple of eight below `2^254`. -/
theorem C111_clamp (rd : Bytes) (h : 32 ≤ rd.length) :
    (clamp (rd.take 32)).length = 32 ∧ leN (clamp (rd.take 32)) = 2 ^ 254 + (leN (rd.take 32) % 2 ^ 254 / 8) * 8 := by
  have hl : (rd.take 32).length = 32 := by rw [List.length_take]; omega
  generalize rd.take 32 = b at hl
  refine ⟨by simp [clamp, hl], ?_⟩
  match b, hl with
  | x :: rest, hl =>
    have hr : rest.length = 31 := by simpa using hl
    obtain ⟨mid, z, rfl⟩ : ∃ mid z, rest = mid ++ [z] := by
      have hne : rest ≠ [] := by intro e; simp [e] at hr
      exact ⟨rest.dropLast, rest.getLast hne, (List.dropLast_append_getLast hne).symm⟩
    have hm : mid.length = 30 := by simpa using hr
    have hc : clamp (x :: (mid ++ [z])) = (x &&& 248#8) :: (mid ++ [(z &&& 127#8) ||| 64#8]) := by
      rw [clamp, List.modify_zero_cons, List.modify_succ_cons, List.modify_succ_cons]
      congr 1
      have (f : Byte → Byte) (w : Byte) : (mid ++ [w]).modify 30 f = mid ++ [f w] := by
        rw [← hm]; clear hm hr hl
        induction mid with
        | nil => rfl
        | cons a as ih => simp [ih]
      rw [this, this]
    rw [hc]
    have happ (a b : Bytes) : leN (a ++ b) = leN a + 256 ^ a.length * leN b := by
      induction a with
      | nil => simp [leN]
      | cons a as ih => rw [List.cons_append, leN, leN, ih, List.length_cons, pow_succ]; ring
    have hone (w : Byte) : leN [w] = w.toNat := by simp [leN]
    rw [leN, leN, happ, happ, hm, hone, hone]
    have hx1 : (x &&& 248#8).toNat = x.toNat / 8 * 8 := by
      have : ∀ x : Byte, (x &&& 248#8).toNat = x.toNat / 8 * 8 := by decide +kernel
      exact this x
    have hz1 : ((z &&& 127#8) ||| 64#8).toNat = 64 + z.toNat % 64 := by
      have : ∀ z : Byte, ((z &&& 127#8) ||| 64#8).toNat = 64 + z.toNat % 64 := by decide +kernel
      exact this z
    rw [hx1, hz1]
    have hlt : leN mid < 256 ^ 30 := by
      have := setBytes_lt mid.reverse
      rw [setBytes, Kb.beN, List.reverse_reverse, List.length_reverse, hm] at this
      exact this
    have hx2 := x.isLt
    have hz2 := z.isLt
    generalize leN mid = M at *
    generalize x.toNat = a at *
    generalize z.toNat = e at *
    have : (256 : Nat) ^ 30 = 2 ^ 240 := by decide
    omega

/-- C111. Keys of Curve25519 agree whenever the multiplication does; the private key of 32 bytes is used as it is. -/
theorem C111_x_agree (base : Bytes → Bytes) (mul : Bytes → Bytes → Bytes) (hlen : ∀ k, (base k).length = 32) (hcomm : ∀ a b, mul a (base b) = mul b (base a)) (rd rd' : Bytes)
    (h : 32 ≤ rd.length) (h' : 32 ≤ rd'.length) :
    ∃ k k' s, xGenKey base rd = .ok k ∧ xGenKey base rd' = .ok k' ∧ xSecret mul k.1 k'.2 = .ok s ∧ xSecret mul k'.1 k.2 = .ok s ∧ xPublic base k.1 = k.2 := by
  have l1 := (C111_clamp rd h).1
  have l2 := (C111_clamp rd' h').1
  refine ⟨(clamp (rd.take 32), base (clamp (rd.take 32))), (clamp (rd'.take 32), base (clamp (rd'.take 32))), mul (clamp (rd.take 32)) (base (clamp (rd'.take 32))), ?_, ?_, ?_, ?_, ?_⟩
  · rw [xGenKey, if_neg (by omega)]
  · rw [xGenKey, if_neg (by omega)]
  · rw [xSecret, if_neg (by simpa using l1), if_neg (by simp [hlen])]
  · rw [xSecret, if_neg (by simpa using l2), if_neg (by simp [hlen]), hcomm]
  · rw [xPublic, copyInto]
    simp only
    rw [List.length_replicate, List.take_of_length_le (by omega), l1, List.drop_replicate, Nat.sub_self, List.replicate_zero, List.append_nil]

/-- C111, violation: `ComputeSecret` panics on a peer's key of another length. -/
theorem C111_x_violated (mul : Bytes → Bytes → Bytes) (X Y : Bytes) (h : Y.length ≠ 32) : xSecret mul X Y = .panic := by
  rw [xSecret, if_pos h]; split <;> rfl

example : clamp (List.replicate 32 255#8) = 248#8 :: (List.replicate 30 255#8 ++ [127#8]) := by decide +kernel

end Verif.Pub.Dh
