import Verif.Sm2.Model
import Verif.Pub.DhProps
/-
C129: SM2 signatures (gm/sm2).  The specification is GB/T 32918.2, stated with the group of the curve and the integers modulo its order.
-/
namespace Verif.Sm2
open Verif.Cipher Verif.Kdf Verif.Pub Verif.Pub.Dh Verif.Asn1

namespace Spec

/-- A key pair: `1 ≤ d ≤ n - 2` and the coordinates of `d·G`. -/
def IsPair (c : C) (key : Priv) : Prop := 1 ≤ key.D ∧ key.D < c.N - 1 ∧ key.pub = ⟨c.x (key.D • c.G), c.y (key.D • c.G)⟩

/-- GB/T 32918.2, 7.1: the signature is valid for the number `e` and the public point `Q`. -/
def Valid (c : C) (Q : c.α) (e : Nat) (r s : Int) : Prop :=
  1 ≤ r ∧ r < c.N ∧ 1 ≤ s ∧ s < c.N ∧ ¬ (c.N : Int) ∣ r + s ∧ r = (e + c.x (s.toNat • c.G + ((r + s) % c.N).toNat • Q)) % c.N

/-- GB/T 32918.2, 6.1: the numbers of the signature with the nonce `k`. -/
def Signs (c : C) (d k e : Nat) (r s : Nat) : Prop :=
  r < c.N ∧ s < c.N ∧ r = (e + c.x (k • c.G)) % c.N ∧ (s : ZMod c.N) * (1 + d) = k - r * d

/-- The octets that are hashed to the identity value: the length of the identity in bits, the identity, and the numbers `a`, `b`, the base point and the
public key, all in as many octets as an element of the field. -/
def zaInput (c : C) (pub : Pub) (uid : Bytes) : Bytes :=
  hx 2 (8 * uid.length) ++ uid ++ hx c.plen (c.P - 3) ++ hx c.plen c.B ++ hx c.plen (c.x c.G) ++ hx c.plen (c.y c.G) ++ hx c.plen pub.X ++ hx c.plen pub.Y

end Spec

theorem point_pubOf (c : C) (a : c.α) : point c (c.x a) (c.y a) = .ok a := by
  rw [point]
  by_cases ha : a = 0
  · subst ha; rw [if_pos ⟨c.x_zero, c.y_zero⟩]
  · rw [if_neg, c.pt_coord a ha]
    rintro ⟨h1, h2⟩
    have i1 := c.isOn_coord a
    have i2 := c.isOn_coord 0
    rw [h1, h2] at i1
    rw [c.x_zero, c.y_zero] at i2
    rw [i1] at i2
    simp [ha] at i2

theorem isOnCurve_pubOf (c : C) (a : c.α) : isOnCurve c (c.x a) (c.y a) = decide (a ≠ 0) := by
  by_cases ha : a = 0
  · subst ha; rw [isOnCurve, if_pos ⟨c.x_zero, c.y_zero⟩]; simp
  · have := point_pubOf c a
    rw [point] at this
    rw [isOnCurve]
    split at this
    · rw [Res.ok.injEq] at this; exact absurd this.symm ha
    · rename_i h0
      rw [if_neg h0, c.pt_coord a ha]; simp [ha]

theorem toBytes_x (c : C) (a : c.α) : toBytes c (c.x a) = .ok (hx c.plen (c.x a)) := fillBytes_ok (Nat.lt_of_lt_of_le (c.x_lt a) c.P_le)
theorem toBytes_y (c : C) (a : c.α) : toBytes c (c.y a) = .ok (hx c.plen (c.y a)) := fillBytes_ok (Nat.lt_of_lt_of_le (c.y_lt a) c.P_le)

/-- What a call of `signUsingK` returns, for a private number that is not `-1`. -/
theorem signUsingK_cases (c : C) (k : Nat) (key : Priv) (hash : Bytes) (hd : ¬ c.N ∣ key.D + 1) :
    (signUsingK c k key hash = .ok none ∧ (((c.x (k • c.G) + setBytes hash) % c.N ≠ 0 ∧ (c.x (k • c.G) + setBytes hash) % c.N + k = c.N) ∨
        (k : ZMod c.N) = ((c.x (k • c.G) + setBytes hash : Nat) : ZMod c.N) * key.D)) ∨
    ∃ s, signUsingK c k key hash = .ok (some ((c.x (k • c.G) + setBytes hash) % c.N, s)) ∧ 0 < s ∧ s < c.N ∧
      ¬((c.x (k • c.G) + setBytes hash) % c.N ≠ 0 ∧ (c.x (k • c.G) + setBytes hash) % c.N + k = c.N) ∧
      (s : ZMod c.N) * (1 + key.D) = k - ((c.x (k • c.G) + setBytes hash : Nat) : ZMod c.N) * key.D := by
  rw [signUsingK, Curve.baseMult_eq]
  simp only
  have hrc : (((c.x (k • c.G) + setBytes hash) % c.N : Nat) : ZMod c.N) = ((c.x (k • c.G) + setBytes hash : Nat) : ZMod c.N) := ZMod.natCast_mod _ _
  rw [← hrc]
  generalize (c.x (k • c.G) + setBytes hash) % c.N = r
  by_cases h1 : r ≠ 0 ∧ r + k = c.N
  · left; rw [if_pos h1]; exact ⟨rfl, .inl h1⟩
  · rw [if_neg h1]
    obtain ⟨v, hv, _, hm⟩ := modInv_prime c.prime hd
    rw [hv]
    simp only
    set S : Int := ((k : Int) - (key.D : Int) * r) * v % c.N with hS
    have hN : (0 : Int) < c.N := by exact_mod_cast c.N_pos
    have hcast : ((S : Int) : ZMod c.N) = (k - key.D * r) * v := by
      have : (((((k : Int) - (key.D : Int) * r) * v % c.N : Int)) : ZMod c.N) = ((((k : Int) - (key.D : Int) * r) * v : Int) : ZMod c.N) := by
        rw [ZMod.intCast_eq_intCast_iff]; exact Int.mod_modEq _ _
      rw [hS, this]; push_cast; ring
    have hmul : ((S : Int) : ZMod c.N) * (1 + key.D) = k - r * key.D := by
      rw [hcast]
      have : (1 + (key.D : ZMod c.N)) * v = 1 := by
        have := hm
        push_cast at this
        linear_combination this
      linear_combination (k - key.D * (r : ZMod c.N)) * this
    have h0 : 0 ≤ S := Int.emod_nonneg _ (by omega)
    have hlt : S < c.N := Int.emod_lt_of_pos _ hN
    obtain ⟨s, hs⟩ := Int.eq_ofNat_of_zero_le h0
    by_cases hz : S = 0
    · left; rw [if_pos hz]
      refine ⟨rfl, .inr ?_⟩
      rw [hz] at hmul
      simp only [Int.cast_zero, zero_mul] at hmul
      linear_combination -hmul
    · right; rw [if_neg hz]
      refine ⟨S.toNat, rfl, by omega, by omega, h1, ?_⟩
      rw [hs] at hmul ⊢
      simpa using hmul

theorem Spec.IsPair.not_dvd {c : C} {key : Priv} (h : Spec.IsPair c key) : ¬ c.N ∣ key.D + 1 :=
  c.not_dvd (by omega) (by have := h.2.1; omega)

/-- C129. For every public point, number and pair of numbers of any sign, verification accepts exactly the signatures that are valid by the standard. -/
theorem C129_verify (c : C) (Q : c.α) (hash : Bytes) (r s : Int) :
    ∃ b, verify c (pubOf c Q) hash r s = .ok b ∧ (b = true ↔ Spec.Valid c Q (setBytes hash) r s) := by
  have hN : (0 : Int) < c.N := by exact_mod_cast c.N_pos
  rw [verify]
  by_cases h1 : r ≤ 0 ∨ s ≤ 0
  · rw [if_pos h1]; exact ⟨false, rfl, by simp; intro h; have := h.1; have := h.2.2.1; omega⟩
  rw [if_neg h1]
  by_cases h2 : r ≥ c.N ∨ s ≥ c.N
  · rw [if_pos h2]; exact ⟨false, rfl, by simp; intro h; have := h.2.1; have := h.2.2.2.1; omega⟩
  rw [if_neg h2]
  simp only
  by_cases h3 : (r + s) % c.N = 0
  · rw [if_pos h3]; exact ⟨false, rfl, by simp; intro h; exact h.2.2.2.2.1 (Int.dvd_of_emod_eq_zero h3)⟩
  rw [if_neg h3]
  simp only [pubOf, point_pubOf, Curve.baseMult_eq, Curve.mult_eq]
  refine ⟨_, rfl, ?_⟩
  rw [decide_eq_true_eq, Spec.Valid]
  constructor
  · intro h
    refine ⟨by omega, by omega, by omega, by omega, fun hd => h3 (Int.emod_eq_zero_of_dvd hd), ?_⟩
    have := h.symm
    push_cast at this
    rw [add_comm]; exact this
  · intro h
    have := h.2.2.2.2.2.symm
    push_cast
    rw [add_comm]; exact this

/-- C129. A signature made with a nonce in `[1, n)` by a key pair is accepted, unless its first number is zero. -/
theorem C129_sign_verify_partial (c : C) (key : Priv) (hk : Spec.IsPair c key) (k : Nat) (h1 : 1 ≤ k) (h2 : k < c.N) (hash : Bytes) (r s : Nat)
    (h : signUsingK c k key hash = .ok (some (r, s))) (hr : r ≠ 0) :
    Spec.Signs c key.D k (setBytes hash) r s ∧ verify c key.pub hash r s = .ok true := by
  rcases signUsingK_cases c k key hash hk.not_dvd with ⟨h', _⟩ | ⟨s', h', hs0, hs1, hne, hm⟩
  · rw [h'] at h; cases h
  rw [h', Res.ok.injEq, Option.some.injEq, Prod.mk.injEq] at h
  obtain ⟨hr', rfl⟩ := h
  have hrN : r < c.N := by rw [← hr']; exact Nat.mod_lt _ c.N_pos
  have hrc : ((c.x (k • c.G) + setBytes hash : Nat) : ZMod c.N) = r := by rw [← hr', ZMod.natCast_mod]
  rw [hrc] at hm
  rw [hr'] at hne
  refine ⟨⟨hrN, hs1, by rw [← hr', add_comm], hm⟩, ?_⟩
  obtain ⟨b, hb, hiff⟩ := C129_verify c (key.D • c.G) hash r s'
  rw [show key.pub = pubOf c (key.D • c.G) from hk.2.2, hb, Res.ok.injEq, hiff]
  have hnd : ¬ (c.N : Int) ∣ (r : Int) + s' := by
    intro hd
    have hz : (((r : Int) + s' : Int) : ZMod c.N) = 0 := (ZMod.intCast_zmod_eq_zero_iff_dvd _ _).mpr hd
    push_cast at hz
    have hk0 : ((k + r : Nat) : ZMod c.N) = 0 := by
      push_cast
      linear_combination (1 + (key.D : ZMod c.N)) * hz - hm
    rw [ZMod.natCast_eq_zero_iff] at hk0
    obtain ⟨q, hq⟩ := hk0
    have hq1 : q = 1 := by
      rcases q with _ | _ | q
      · omega
      · rfl
      · exfalso
        have : c.N * (q + 1 + 1) = c.N * q + 2 * c.N := by ring
        omega
    subst hq1
    exact hne ⟨hr, by omega⟩
  refine ⟨by omega, by omega, by omega, by omega, hnd, ?_⟩
  have hpt : (s' : Int).toNat • c.G + (((r : Int) + s') % c.N).toNat • (key.D • c.G) = k • c.G := by
    rw [smul_smul, ← add_smul]
    apply c.smul_congr
    have e1 : ((((r : Int) + s') % c.N).toNat : ZMod c.N) = r + s' := by
      have h0 : 0 ≤ ((r : Int) + s') % c.N := Int.emod_nonneg _ (by have := c.N_pos; omega)
      have : (((((r : Int) + s') % c.N).toNat : Int) : ZMod c.N) = ((r : Int) + s' : Int) := by
        rw [Int.toNat_of_nonneg h0, ZMod.intCast_eq_intCast_iff]; exact Int.mod_modEq _ _
      push_cast at this
      exact_mod_cast this
    push_cast
    rw [e1, Int.toNat_natCast]
    linear_combination hm
  rw [hpt, ← hr']
  push_cast; rw [add_comm]

/-- C129. The signatures that verification accepts for a key pair are those that its private number makes with some nonce in `[0, n)`, the first number
not being zero. -/
theorem C129_accepts_iff (c : C) (key : Priv) (hk : Spec.IsPair c key) (hash : Bytes) (r s : Int) :
    verify c key.pub hash r s = .ok true ↔ ∃ k r' s' : Nat, k < c.N ∧ signUsingK c k key hash = .ok (some (r', s')) ∧ r' ≠ 0 ∧ r = r' ∧ s = s' := by
  obtain ⟨b, hb, hiff⟩ := C129_verify c (key.D • c.G) hash r s
  rw [show key.pub = pubOf c (key.D • c.G) from hk.2.2, hb, Res.ok.injEq, hiff]
  constructor
  · intro hv
    obtain ⟨r1, r2, s1, s2, hnd, hx'⟩ := hv
    obtain ⟨r', rfl⟩ := Int.eq_ofNat_of_zero_le (show 0 ≤ r by omega)
    obtain ⟨s', rfl⟩ := Int.eq_ofNat_of_zero_le (show 0 ≤ s by omega)
    have ht0 : 0 ≤ ((r' : Int) + s') % c.N := Int.emod_nonneg _ (by have := c.N_pos; omega)
    obtain ⟨t, ht⟩ := Int.eq_ofNat_of_zero_le ht0
    rw [ht] at hx'
    simp only [Int.toNat_natCast] at hx'
    have htc : (t : ZMod c.N) = r' + s' := by
      have : ((((r' : Int) + s') % c.N : Int) : ZMod c.N) = ((r' : Int) + s' : Int) := by rw [ZMod.intCast_eq_intCast_iff]; exact Int.mod_modEq _ _
      rw [ht] at this
      push_cast at this
      exact this
    set k := (s' + t * key.D) % c.N with hkdef
    have hkN : k < c.N := Nat.mod_lt _ c.N_pos
    have hkc : (k : ZMod c.N) = s' * (1 + key.D) + r' * key.D := by
      rw [hkdef, ZMod.natCast_mod]; push_cast; rw [htc]; ring
    have hpt : s' • c.G + t • (key.D • c.G) = k • c.G := by
      rw [smul_smul, ← add_smul]
      apply c.smul_congr
      rw [hkdef, ZMod.natCast_mod]
    rw [hpt] at hx'
    have hr' : (c.x (k • c.G) + setBytes hash) % c.N = r' := by
      rw [add_comm]
      exact_mod_cast hx'.symm
    refine ⟨k, r', s', hkN, ?_, by omega, rfl, rfl⟩
    have hrc : ((c.x (k • c.G) + setBytes hash : Nat) : ZMod c.N) = r' := by rw [← hr', ZMod.natCast_mod]
    have hu : (1 + (key.D : ZMod c.N)) ≠ 0 := by
      have := c.cast_ne_zero hk.not_dvd
      push_cast at this
      rwa [add_comm]
    have hs0 : ((s' : Nat) : ZMod c.N) ≠ 0 := c.cast_ne_zero (c.not_dvd (by omega) (by omega))
    rcases signUsingK_cases c k key hash hk.not_dvd with ⟨_, hbad | hbad⟩ | ⟨s'', h', hs0', hs1', hne, hm⟩
    · exfalso
      rw [hr'] at hbad
      apply hnd
      have hz : ((k + r' : Nat) : ZMod c.N) = 0 := by
        rw [ZMod.natCast_eq_zero_iff]; exact ⟨1, by omega⟩
      push_cast at hz
      rw [hkc] at hz
      have : (1 + (key.D : ZMod c.N)) * (r' + s') = 0 := by linear_combination hz
      rcases mul_eq_zero.1 this with h | h
      · exact absurd h hu
      · rw [← ZMod.intCast_zmod_eq_zero_iff_dvd]; push_cast; exact h
    · exfalso
      rw [hrc, hkc] at hbad
      have : (1 + (key.D : ZMod c.N)) * s' = 0 := by linear_combination hbad
      rcases mul_eq_zero.1 this with h | h
      · exact hu h
      · exact hs0 h
    · rw [h', hr']
      rw [hrc, hkc] at hm
      have : (1 + (key.D : ZMod c.N)) * ((s'' : ZMod c.N) - s') = 0 := by linear_combination hm
      rcases mul_eq_zero.1 this with h | h
      · exact absurd h hu
      · have h := (ZMod.natCast_eq_natCast_iff' s'' s' c.N).mp (sub_eq_zero.1 h)
        rw [Nat.mod_eq_of_lt hs1', Nat.mod_eq_of_lt (by omega)] at h
        rw [h]
  · rintro ⟨k, r', s', hkN, h, hr, rfl, rfl⟩
    rcases Nat.eq_zero_or_pos k with hk0 | hk0
    · -- the nonce zero: the point is the neutral element
      subst hk0
      rcases signUsingK_cases c 0 key hash hk.not_dvd with ⟨h', _⟩ | ⟨s'', h', hs0, hs1, hne, hm⟩
      · rw [h'] at h; cases h
      rw [h', Res.ok.injEq, Option.some.injEq, Prod.mk.injEq] at h
      obtain ⟨hr', rfl⟩ := h
      have hrN : r' < c.N := by rw [← hr']; exact Nat.mod_lt _ c.N_pos
      have hrc : ((c.x (0 • c.G) + setBytes hash : Nat) : ZMod c.N) = r' := by rw [← hr', ZMod.natCast_mod]
      rw [hrc] at hm
      push_cast at hm
      have ht0 : 0 ≤ ((r' : Int) + s'') % c.N := Int.emod_nonneg _ (by have := c.N_pos; omega)
      obtain ⟨t, ht⟩ := Int.eq_ofNat_of_zero_le ht0
      have htc : (t : ZMod c.N) = r' + s'' := by
        have : ((((r' : Int) + s'') % c.N : Int) : ZMod c.N) = ((r' : Int) + s'' : Int) := by rw [ZMod.intCast_eq_intCast_iff]; exact Int.mod_modEq _ _
        rw [ht] at this
        push_cast at this
        exact this
      refine ⟨by omega, by omega, by omega, by omega, ?_, ?_⟩
      · intro hd
        have hz : (((r' : Int) + s'' : Int) : ZMod c.N) = 0 := (ZMod.intCast_zmod_eq_zero_iff_dvd _ _).mpr hd
        push_cast at hz
        have : ((r' : Nat) : ZMod c.N) = 0 := by linear_combination (1 + (key.D : ZMod c.N)) * hz - hm
        exact c.cast_ne_zero (c.not_dvd (by omega) hrN) this
      · rw [ht, Int.toNat_natCast, Int.toNat_natCast]
        have hpt : s'' • c.G + t • (key.D • c.G) = 0 • c.G := by
          rw [smul_smul, ← add_smul]
          apply c.smul_congr
          push_cast
          rw [htc]
          linear_combination hm
        rw [hpt, ← hr']
        push_cast; rw [add_comm]
    · have := (C129_sign_verify_partial c key hk k hk0 hkN hash r' s' h hr).2
      obtain ⟨b', hb', hiff'⟩ := C129_verify c (key.D • c.G) hash r' s'
      rw [show key.pub = pubOf c (key.D • c.G) from hk.2.2, hb', Res.ok.injEq] at this
      exact hiff'.1 this

/-- C129. Disagreement: when the hash cancels the coordinate, the signature returned has first number zero, which no verification accepts.  (The standard asks for
another nonce.) -/
theorem C129_zero_violated (c : C) (key : Priv) (hk : Spec.IsPair c key) (k : Nat) (h1 : 1 ≤ k) (h2 : k < c.N) (hash : Bytes)
    (h : c.N ∣ c.x (k • c.G) + setBytes hash) : ∃ s, signUsingK c k key hash = .ok (some (0, s)) ∧ ∀ pub', verify c pub' hash 0 s = .ok false := by
  rcases signUsingK_cases c k key hash hk.not_dvd with ⟨_, hbad | hbad⟩ | ⟨s, h', _, _, _, _⟩
  · exact absurd (Nat.mod_eq_zero_of_dvd h) hbad.1
  · exfalso
    rw [(ZMod.natCast_eq_zero_iff _ _).mpr h, zero_mul] at hbad
    exact c.cast_ne_zero (c.not_dvd h1 h2) hbad
  · refine ⟨s, ?_, fun pub' => ?_⟩
    · rw [h', Nat.mod_eq_zero_of_dvd h]
    · rw [verify, if_pos (.inl (by simp))]

/-- C129. Disagreement: key generation can return the private number `n - 1`, with which signing panics whatever the nonce and the hash are (or asks for another
nonce). -/
theorem C129_last_key_violated (c : C) : (∀ rd : Bytes, c.bitSize / 8 + 8 ≤ rd.length → setBytes (rd.take (c.bitSize / 8 + 8)) = c.N - 2 →
      ∃ key, genKey c rd = .ok key ∧ key.D = c.N - 1) ∧
    ∀ (key : Priv), key.D = c.N - 1 → ∀ k hash, signUsingK c k key hash = .panic ∨ signUsingK c k key hash = .ok none := by
  have h2 := c.two_le
  constructor
  · intro rd hl hv
    rw [genKey, rnd]
    rw [if_neg (by omega)]
    refine ⟨_, rfl, ?_⟩
    simp only
    rw [hv, Nat.mod_eq_of_lt (by omega)]; omega
  · intro key hd k hash
    rw [signUsingK]
    simp only
    split
    · exact .inr rfl
    · rw [modInv_none c.one_lt (by rw [hd]; exact ⟨1, by omega⟩)]
      exact .inl rfl

theorem rnd_cases (c : C) (rd : Bytes) : (rnd c rd = .err ∧ rd.length < c.bitSize / 8 + 8) ∨ ∃ k, rnd c rd = .ok (k, rd.drop (c.bitSize / 8 + 8)) ∧ 1 ≤ k ∧ k < c.N ∧
    c.bitSize / 8 + 8 ≤ rd.length := by
  have h2 := c.two_le
  rw [rnd]
  by_cases h : rd.length < c.bitSize / 8 + 8
  · left; rw [if_pos h]; exact ⟨rfl, h⟩
  · right; rw [if_neg h]
    refine ⟨_, rfl, by omega, ?_, by omega⟩
    have := Nat.mod_lt (setBytes (rd.take (c.bitSize / 8 + 8))) (show 0 < c.N - 1 by omega)
    omega

/-- C129. Key generation, from any random source: an error when it ends early, otherwise a number in `[1, n)` and its point. -/
theorem C129_generate (c : C) (rd : Bytes) : (genKey c rd = .err ∧ rd.length < c.bitSize / 8 + 8) ∨
    ∃ key, genKey c rd = .ok key ∧ 1 ≤ key.D ∧ key.D < c.N ∧ key.pub = ⟨c.x (key.D • c.G), c.y (key.D • c.G)⟩ := by
  rw [genKey]
  rcases rnd_cases c rd with ⟨h, hl⟩ | ⟨k, h, h1, h2, _⟩
  · left; rw [h]; exact ⟨rfl, hl⟩
  · right; rw [h]; simp only
    exact ⟨_, rfl, h1, h2, by simp [pubOf]⟩

/-- C129. Importing a private number: exactly those below `n - 1` are taken, zero among them, and exporting gives the number back. -/
theorem C129_import (c : C) (d : Bytes) :
    (newPriv c d = .err ↔ c.N - 1 ≤ setBytes d) ∧
    (∀ key, newPriv c d = .ok key → key.D = setBytes d ∧ key.pub = pubOf c (setBytes d • c.G) ∧ privTo c key = .ok (hx (byteLen c.N) (setBytes d)) ∧
      (setBytes d ≠ 0 → Spec.IsPair c key)) := by
  rw [newPriv]
  by_cases h : setBytes d ≥ c.N - 1
  · rw [if_pos h]; exact ⟨⟨fun _ => h, fun _ => rfl⟩, fun key hk => by cases hk⟩
  · rw [if_neg h]
    refine ⟨⟨fun hk => (by cases hk), fun hk => absurd hk h⟩, fun key hk => ?_⟩
    rw [Res.ok.injEq] at hk
    subst hk
    refine ⟨rfl, rfl, fillBytes_ok ?_, fun h0 => ⟨by simp only; omega, by simp only; omega, rfl⟩⟩
    exact Nat.lt_trans (by simp only; omega) (lt_pow_byteLen c.N)

/-- C129. Exported public keys are read back. -/
theorem C129_public (c : C) (a : c.α) (ha : a ≠ 0) : ∃ b, pubTo c (pubOf c a) = .ok b ∧ newPub c b = .ok (pubOf c a) ∧
    b = 4#8 :: (hx c.plen (c.x a) ++ hx c.plen (c.y a)) := by
  refine ⟨4#8 :: (hx c.plen (c.x a) ++ hx c.plen (c.y a)), ?_, ?_, rfl⟩
  · rw [pubTo, if_neg]
    · simp only [pubOf]; rw [toBytes_x, toBytes_y]; rfl
    · rintro ⟨_, h⟩
      simp only [pubOf] at h
      rw [isOnCurve_pubOf] at h
      simp [ha] at h
  · have e1 : c.plen - (hx c.plen (c.x a)).length = 0 := by rw [hx_length]; omega
    have t1 : (((4#8 :: (hx c.plen (c.x a) ++ hx c.plen (c.y a))) : Bytes).drop 1).take c.plen = hx c.plen (c.x a) := by
      rw [List.drop_one, List.tail_cons, List.take_append_of_le_length (by rw [hx_length]), List.take_of_length_le (by rw [hx_length])]
    have t2 : ((4#8 :: (hx c.plen (c.x a) ++ hx c.plen (c.y a))) : Bytes).drop (1 + c.plen) = hx c.plen (c.y a) := by
      rw [Nat.add_comm, List.drop_succ_cons, List.drop_append_of_le_length (by rw [hx_length]), List.drop_of_length_le (by rw [hx_length]), List.nil_append]
    rw [newPub, if_neg (by simp), if_neg (by simp [hx_length]; omega), t1, t2, setBytes_hx _ _ (Nat.lt_of_lt_of_le (c.x_lt a) c.P_le), setBytes_hx _ _ (Nat.lt_of_lt_of_le (c.y_lt a) c.P_le)]
    simp only
    rw [c.pt_coord a ha]
    rfl

/-- C129. A public key that is read is a point of the curve, and its encoding is the bytes that were read. -/
theorem C129_public_valid (c : C) (b : Bytes) (pub : Pub) (h : newPub c b = .ok pub) : ∃ a : c.α, a ≠ 0 ∧ pub = pubOf c a ∧
    b = 4#8 :: (hx c.plen pub.X ++ hx c.plen pub.Y) := by
  rw [newPub] at h
  split at h
  · cases h
  rename_i h4
  split at h
  · cases h
  rename_i hl
  rw [not_not] at h4 hl
  simp only at h
  cases hp : c.pt (setBytes ((b.drop 1).take c.plen)) (setBytes (b.drop (1 + c.plen))) with
  | none => rw [hp] at h; cases h
  | some a =>
    rw [hp] at h
    simp only [Res.ok.injEq] at h
    subst h
    obtain ⟨h1, h2, h3⟩ := c.pt_some _ _ _ hp
    refine ⟨a, h1, by rw [pubOf, h2, h3], ?_⟩
    cases b with
    | nil => simp at h4
    | cons b0 b =>
      simp only [List.head?_cons, Option.some.injEq] at h4
      subst h4
      simp only [List.length_cons] at hl
      simp only [List.drop_one, List.tail_cons]
      have e1 : (b.take c.plen).length = c.plen := by rw [List.length_take]; omega
      have e2 : ((4#8 :: b).drop (1 + c.plen)) = b.drop c.plen := by rw [Nat.add_comm, List.drop_succ_cons]
      have e3 : (b.drop c.plen).length = c.plen := by rw [List.length_drop]; omega
      have f1 := hx_setBytes (b.take c.plen)
      have f2 := hx_setBytes (b.drop c.plen)
      rw [e1] at f1
      rw [e3] at f2
      rw [e2, f1, f2, List.take_append_drop]

/-- C129. The identity value is the hash of the identity and the parameters, for identities below 8192 bytes; longer ones are an error.  The numbers `a`, `b` and the base point must not begin
with a zero byte, as for the curve of SM2. -/
theorem C129_za (c : C) (H : HashFn) (hA : byteLen (c.P - 3) = c.plen) (hB : byteLen c.B = c.plen) (hx' : byteLen (c.x c.G) = c.plen) (hy : byteLen (c.y c.G) = c.plen) (a : c.α) (uid : Bytes) :
    calculateZA c H (pubOf c a) uid = if uid.length < 8192 then .ok (H.f (Spec.zaInput c (pubOf c a) uid)) else .err := by
  rw [calculateZA]
  by_cases h : uid.length ≥ 8192
  · rw [if_pos h, if_neg (by omega)]
  · rw [if_neg h, if_pos (by omega)]
    simp only [pubOf]
    rw [toBytes_x, toBytes_y]
    simp only [bind, Res.bind]
    rw [Spec.zaInput, natBytes, natBytes, natBytes, natBytes, hA, hB, hx', hy]
    have : hx 2 (8 * uid.length) = [((BitVec.ofNat 16 (8 * uid.length)) >>> 8).setWidth 8] ++ [(BitVec.ofNat 16 (8 * uid.length)).setWidth 8] := by
      have : ∀ n : BitVec 16, hx 2 n.toNat = [(n >>> 8).setWidth 8] ++ [n.setWidth 8] := by
        intro n
        rw [show hx 2 n.toNat = [BitVec.ofNat 8 (n.toNat / 256), BitVec.ofNat 8 n.toNat] by simp [hx, leBytes]]
        have e1 : BitVec.ofNat 8 (n.toNat / 256) = (n >>> 8).setWidth 8 := by
          apply BitVec.eq_of_toNat_eq
          simp [Nat.shiftRight_eq_div_pow]
        have e2 : BitVec.ofNat 8 n.toNat = n.setWidth 8 := by
          apply BitVec.eq_of_toNat_eq
          simp
        rw [e1, e2]; rfl
      rw [← this, BitVec.toNat_ofNat, Nat.mod_eq_of_lt (by omega)]
    rw [this]

/-- C129. The octets that are hashed determine the identity and the key. -/
theorem C129_za_injective (c : C) (a a' : c.α) (uid uid' : Bytes) (h1 : uid.length < 8192) (h2 : uid'.length < 8192)
    (h : Spec.zaInput c (pubOf c a) uid = Spec.zaInput c (pubOf c a') uid') : uid = uid' ∧ pubOf c a = pubOf c a' := by
  simp only [Spec.zaInput, List.append_assoc] at h
  obtain ⟨e1, h⟩ := List.append_inj h (by simp [hx_length])
  have e1 := congrArg setBytes e1
  rw [setBytes_hx _ _ (by omega), setBytes_hx _ _ (by omega)] at e1
  obtain ⟨e2, h⟩ := List.append_inj h (by omega)
  refine ⟨e2, ?_⟩
  obtain ⟨-, h⟩ := List.append_inj h (by simp [hx_length])
  obtain ⟨-, h⟩ := List.append_inj h (by simp [hx_length])
  obtain ⟨-, h⟩ := List.append_inj h (by simp [hx_length])
  obtain ⟨-, h⟩ := List.append_inj h (by simp [hx_length])
  obtain ⟨e3, e4⟩ := List.append_inj h (by simp [hx_length])
  have e3 := congrArg setBytes e3
  have e4 := congrArg setBytes e4
  have bx (b : c.α) := Nat.lt_of_lt_of_le (c.x_lt b) c.P_le
  have by' (b : c.α) := Nat.lt_of_lt_of_le (c.y_lt b) c.P_le
  simp only [pubOf] at e3 e4 ⊢
  rw [setBytes_hx _ _ (bx _), setBytes_hx _ _ (bx _)] at e3
  rw [setBytes_hx _ _ (by' _), setBytes_hx _ _ (by' _)] at e4
  rw [e3, e4]

/-! ### Encodings -/

/-- C129. Both encodings of a signature are read back; the order must fit in the bytes of a field element. -/
theorem C129_encoding (c : C) (hN : c.N ≤ 256 ^ c.plen) (hl : c.plen < 2 ^ 20) (r s : Nat) (hr : r < c.N) (hs : s < c.N) :
    unsigASN1 (sigASN1 r s) = some ((r : Int), (s : Int)) ∧ ∃ b, sigBytes c r s = .ok b ∧ unsigBytes c b = some ((r : Int), (s : Int)) := by
  have er : r < 256 ^ c.plen := by omega
  have es : s < 256 ^ c.plen := by omega
  constructor
  · have l1 := intBytes_length_le er
    have l2 := intBytes_length_le es
    have m1 := tlv_length (tag := 0x02#8) (c := intBytes r) (by omega)
    have m2 := tlv_length (tag := 0x02#8) (c := intBytes s) (by omega)
    rw [unsigASN1, sigASN1, encSeq, ← List.append_nil (tlv 0x30#8 _), element_tlv _ _ _ (by rw [List.length_append, encInt, encInt]; omega)]
    simp only
    rw [intField_encInt _ _ (by omega)]
    simp only
    rw [← List.append_nil (encInt s), intField_encInt _ _ (by omega)]
  · refine ⟨hx c.plen r ++ hx c.plen s, ?_, ?_⟩
    · rw [sigBytes, toBytes, toBytes, fillBytes_ok er, fillBytes_ok es]; rfl
    · rw [unsigBytes, if_neg (by simp [hx_length]; omega), List.take_append_of_le_length (by rw [hx_length]), List.take_of_length_le (by rw [hx_length]),
        List.drop_append_of_le_length (by rw [hx_length]), List.drop_of_length_le (by rw [hx_length]), List.nil_append, setBytes_hx _ _ er, setBytes_hx _ _ es]

/-- C129. Disagreement: bytes can be added after the ASN.1 encoding of a signature, and the same signature is read. -/
theorem C129_trailing_violated (c : C) (hN : c.N ≤ 256 ^ c.plen) (hl : c.plen < 2 ^ 20) (r s : Nat) (hr : r < c.N) (hs : s < c.N) (junk : Bytes) :
    unsigASN1 (sigASN1 r s ++ junk) = unsigASN1 (sigASN1 r s) := by
  rw [(C129_encoding c hN hl r s hr hs).1]
  have er : r < 256 ^ c.plen := by omega
  have es : s < 256 ^ c.plen := by omega
  have l1 := intBytes_length_le er
  have l2 := intBytes_length_le es
  have m1 := tlv_length (tag := 0x02#8) (c := intBytes r) (by omega)
  have m2 := tlv_length (tag := 0x02#8) (c := intBytes s) (by omega)
  rw [unsigASN1, sigASN1, encSeq, element_tlv _ _ _ (by rw [List.length_append, encInt, encInt]; omega)]
  simp only
  rw [intField_encInt _ _ (by omega)]
  simp only
  rw [← List.append_nil (encInt s), intField_encInt _ _ (by omega)]

/-- What the signing loop ends with. -/
theorem signLoop_cases (c : C) (key : Priv) (hk : Spec.IsPair c key) (hash : Bytes) : ∀ fuel rd, rd.length < fuel →
    signLoop c key hash fuel rd = .err ∨ ∃ k r s, 1 ≤ k ∧ k < c.N ∧ signUsingK c k key hash = .ok (some (r, s)) ∧ signLoop c key hash fuel rd = .ok (r, s)
  | 0, rd, h => by omega
  | fuel + 1, rd, h => by
    rw [signLoop]
    rcases rnd_cases c rd with ⟨hr, _⟩ | ⟨k, hr, h1, h2, hl⟩
    · left; rw [hr]
    rw [hr]
    simp only
    rcases signUsingK_cases c k key hash hk.not_dvd with ⟨h', _⟩ | ⟨s, h', _⟩
    · rw [h']
      exact signLoop_cases c key hk hash fuel _ (by rw [List.length_drop]; omega)
    · right
      rw [h']
      exact ⟨k, _, s, h1, h2, h', rfl⟩

/-- C129. The whole interface: for every random source, message, identity and option, what `Sign` returns for a key pair is accepted by `Verify` with the public key and the same options, or has
first number zero.  It never panics or hangs. -/
theorem C129_api_partial (c : C) (hN : c.N ≤ 256 ^ c.plen) (hl : c.plen < 2 ^ 20) (key : Priv) (hk : Spec.IsPair c key) (rd msg : Bytes) (o : SignOpts) :
    Sign c rd key msg o = .err ∨ ∃ sig r s, Sign c rd key msg o = .ok sig ∧ s < c.N ∧ r < c.N ∧ (sig = sigASN1 r s ∨ sigBytes c r s = .ok sig) ∧ (r ≠ 0 → Verify c key.pub msg sig o = .ok true) := by
  rw [Sign]
  have hz : calculateHash c o.H key.pub msg o.getUid = .err ∨ ∃ h, calculateHash c o.H key.pub msg o.getUid = .ok h := by
    rw [calculateHash, hk.2.2]
    generalize (if o.getUid.length = 0 then defaultUID else o.getUid) = u
    rw [calculateZA]
    split
    · left; rfl
    · right; simp only; rw [toBytes_x, toBytes_y]; exact ⟨_, rfl⟩
  rcases hz with hz | ⟨h, hz⟩
  · left; rw [hz]; rfl
  rw [hz]
  simp only [bind, Res.bind]
  rw [sign]
  rcases signLoop_cases c key hk h (rd.length + 1) rd (by omega) with hs | ⟨k, r, s, h1, h2, hu, hs⟩
  · left; rw [hs]
  rw [hs]
  simp only
  have hb : r < c.N ∧ s < c.N := by
    rcases signUsingK_cases c k key h hk.not_dvd with ⟨h', _⟩ | ⟨s', h', _, hs1, _⟩
    · rw [h'] at hu; cases hu
    · rw [h', Res.ok.injEq, Option.some.injEq, Prod.mk.injEq] at hu
      obtain ⟨rfl, rfl⟩ := hu
      exact ⟨Nat.mod_lt _ c.N_pos, hs1⟩
  obtain ⟨e1, b, e2, e3⟩ := C129_encoding c hN hl r s hb.1 hb.2
  right
  by_cases ho : o.getEnc = 1
  · refine ⟨sigASN1 r s, r, s, by rw [if_pos ho], hb.2, hb.1, .inl rfl, fun hr => ?_⟩
    rw [Verify, if_pos ho, e1]
    simp only
    rw [hz]
    exact (C129_sign_verify_partial c key hk k h1 h2 h r s hu hr).2
  · refine ⟨b, r, s, by rw [if_neg ho, e2], hb.2, hb.1, .inr e2, fun hr => ?_⟩
    rw [Verify, if_neg ho, e3]
    simp only
    rw [hz]
    exact (C129_sign_verify_partial c key hk k h1 h2 h r s hu hr).2

/-! ### The hypotheses hold of a small curve -/

def toyC : C := { toyPt with B := 9, P_ge := by decide }

def toyKey : Priv := ⟨⟨5, 2⟩, 2⟩

example : Spec.IsPair toyC toyKey := ⟨by decide, by decide, by decide +kernel⟩
example : signUsingK toyC 3 toyKey [4] = .ok (some (6, 4)) ∧ verify toyC toyKey.pub [4] 6 4 = .ok true ∧ verify toyC toyKey.pub [5] 6 4 = .ok false := by decide +kernel
example : signUsingK toyC 3 toyKey [5] = .ok (some (0, 1)) ∧ toyC.N ∣ toyC.x (3 • toyC.G) + setBytes [5] := by decide +kernel
example : signUsingK toyC 3 ⟨⟨3, 7⟩, 6⟩ [3] = .panic := by decide +kernel
example : toyC.N ≤ 256 ^ toyC.plen ∧ toyC.plen < 2 ^ 20 ∧ byteLen (toyC.P - 3) = toyC.plen ∧ byteLen toyC.B = toyC.plen ∧ byteLen (toyC.x toyC.G) = toyC.plen ∧ byteLen (toyC.y toyC.G) = toyC.plen := by decide +kernel
example : ∃ key, genKey toyC [0, 0, 0, 0, 0, 0, 0, 5] = .ok key ∧ key.D = toyC.N - 1 := ⟨_, rfl, by decide +kernel⟩
example : ∃ sig, Sign toyC (List.replicate 7 0 ++ [2] ++ List.replicate 7 0 ++ [4]) toyKey [1, 2] ⟨none, 0, toyHash⟩ = .ok sig ∧ Verify toyC toyKey.pub [1, 2] sig ⟨none, 0, toyHash⟩ = .ok true := ⟨_, rfl, by decide +kernel⟩

end Verif.Sm2
