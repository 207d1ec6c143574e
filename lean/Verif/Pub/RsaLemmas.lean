import Verif.Pub.Rsa
import Mathlib.Data.Nat.ModEq
import Mathlib.Data.ZMod.Basic
import Mathlib.Data.Int.GCD
import Mathlib.Algebra.BigOperators.Associated
/-
What a valid RSA key is, and lemmas about pubkey/rsa.
-/
namespace Verif.Pub.Rsa
open Verif.Cipher Verif.Kdf

/-- Specification. The values for the third prime and the following ones, `R` being the product of the primes before. -/
def CrtOk (D : Nat) : Nat → List Nat → List Crt → Prop
  | _, [], [] => True
  | R, p :: ps, v :: vs => v.exp = D % (p - 1) ∧ v.r = R ∧ v.coeff * R % p = 1 ∧ CrtOk D (R * p) ps vs
  | _, _, _ => False
/-- Specification. A valid key, as crypto/rsa checks: different odd primes, their product, exponents inverse modulo each `p - 1`, and precomputed values, if any, that fit. -/
structure Valid (k : PrivKey) : Prop where
  prime : ∀ p ∈ k.primes, p.Prime ∧ 2 < p
  nodup : k.primes.Nodup
  prod : k.primes.prod = k.pub.N
  inv : ∀ p ∈ k.primes, k.pub.E * k.D % (p - 1) = 1
  pre : ∀ v, k.pre = some v → ∃ p q ps, k.primes = p :: q :: ps ∧ v.dp = k.D % (p - 1) ∧ v.dq = k.D % (q - 1) ∧ v.qinv * q % p = 1 ∧ CrtOk k.D (p * q) ps v.crt

theorem pow_congr {p : Nat} (hp : p.Prime) (h2 : 2 < p) (x : ZMod p) {a b : Nat} (ha : a ≠ 0) (hb : b ≠ 0) (h : a % (p - 1) = b % (p - 1)) : x ^ a = x ^ b := by
  have : Fact p.Prime := ⟨hp⟩
  by_cases hx : x = 0
  · rw [hx, zero_pow ha, zero_pow hb]
  · have key : ∀ n, x ^ n = x ^ (n % (p - 1)) := by
      intro n
      conv => lhs; rw [← Nat.div_add_mod n (p - 1), pow_add, pow_mul, ZMod.pow_card_sub_one_eq_one hx, one_pow, one_mul]
    rw [key a, key b, h]

theorem D_mod_ne {k : PrivKey} (hv : Valid k) {p : Nat} (hp : p ∈ k.primes) : k.D % (p - 1) ≠ 0 := by
  intro h
  have := hv.inv p hp
  rw [Nat.mul_mod, h, Nat.mul_zero, Nat.zero_mod] at this
  omega

theorem modEq_prod (l : List Nat) (hp : ∀ p ∈ l, p.Prime) (hn : l.Nodup) (a b : Nat) (h : ∀ p ∈ l, a ≡ b [MOD p]) : a ≡ b [MOD l.prod] := by
  induction l with
  | nil => simp [Nat.modEq_one]
  | cons p l ih =>
    rw [List.prod_cons]
    have hn' := List.nodup_cons.mp hn
    have hc : Nat.Coprime p l.prod := by
      rw [Nat.coprime_list_prod_right_iff]
      intro q hq
      refine (Nat.coprime_primes (hp p (by simp)) (hp q (by simp [hq]))).mpr ?_
      rintro rfl
      exact hn'.1 hq
    exact (Nat.modEq_and_modEq_iff_modEq_mul hc).mp ⟨h p (by simp), ih (fun q hq => hp q (by simp [hq])) hn'.2 fun q hq => h q (by simp [hq])⟩

/-- Euler's theorem for the exponents of a key. -/
theorem pow_ED {k : PrivKey} (hv : Valid k) (x : Nat) : x ^ (k.pub.E * k.D) ≡ x [MOD k.pub.N] := by
  rw [← hv.prod]
  apply modEq_prod _ (fun p hp => (hv.prime p hp).1) hv.nodup
  intro p hp
  rw [← ZMod.natCast_eq_natCast_iff]
  push_cast
  obtain ⟨h1, h2⟩ := hv.prime p hp
  have hi := hv.inv p hp
  have := pow_congr h1 h2 (x : ZMod p) (a := k.pub.E * k.D) (b := 1) (by intro h; rw [h, Nat.zero_mod] at hi; omega) (by omega) (by rw [hi, Nat.mod_eq_of_lt (by omega)])
  rw [this, pow_one]

theorem cast_emod (p : Nat) (a : Int) : ((a % (p : Int) : Int) : ZMod p) = (a : ZMod p) := ZMod.intCast_mod a p

theorem cast_mod_one {p a : Nat} (h1 : 2 < p) (h : a % p = 1) : (a : ZMod p) = 1 := by
  have : a ≡ 1 [MOD p] := by unfold Nat.ModEq; rw [h, Nat.mod_eq_of_lt (by omega)]
  simpa using (ZMod.natCast_eq_natCast_iff _ _ _).mpr this

theorem cast_expMod (p c e : Nat) : ((expMod c e p : Nat) : ZMod p) = (c : ZMod p) ^ e := by
  unfold expMod; rw [ZMod.natCast_mod]; push_cast; rfl

theorem crtLoop_spec {k : PrivKey} (c : Nat) (vs : List Crt) (ps : List Nat) (R m : Nat) (ht : CrtOk k.D R ps vs) (hm : m < R) (he : m ≡ c ^ k.D [MOD R])
    (hp : ∀ p ∈ ps, p.Prime ∧ 2 < p) (hd : ∀ p ∈ ps, k.D % (p - 1) ≠ 0) (hn : ps.Nodup) (hc : ∀ p ∈ ps, Nat.Coprime R p) :
    ∃ m' : Nat, crtLoop c vs ps (m : Int) = .ok (m' : Int) ∧ m' < R * ps.prod ∧ m' ≡ c ^ k.D [MOD R * ps.prod] := by
  induction vs generalizing ps R m with
  | nil =>
    cases ps with
    | nil => exact ⟨m, rfl, by simpa using hm, by simpa using he⟩
    | cons p ps => exact absurd ht (by simp [CrtOk])
  | cons v vs ih =>
    cases ps with
    | nil => exact absurd ht (by simp [CrtOk])
    | cons p ps =>
      obtain ⟨t1, t2, t3, t4⟩ := ht
      obtain ⟨p1, p2⟩ := hp p (by simp)
      have hp0 : (0 : Int) < p := by omega
      generalize hx : (((expMod c v.exp p : Nat) : Int) - m) * v.coeff % (p : Int) = x
      have x0 : 0 ≤ x := by rw [← hx]; exact Int.emod_nonneg _ (by omega)
      have x1 : x < p := by rw [← hx]; exact Int.emod_lt_of_pos _ hp0
      have xc : ((x : Int) : ZMod p) = ((c : ZMod p) ^ v.exp - m) * v.coeff := by
        rw [← hx, cast_emod]; push_cast; rw [cast_expMod]
      have xe : x = ((x.toNat : Nat) : Int) := (Int.toNat_of_nonneg x0).symm
      have xl : x.toNat < p := by omega
      generalize x.toNat = y at xe xl
      subst xe
      have cp := hc p (by simp)
      have m1 : m + y * R < R * p := by
        calc m + y * R < R + y * R := by omega
          _ = (y + 1) * R := by ring
          _ ≤ p * R := Nat.mul_le_mul_right _ xl
          _ = R * p := Nat.mul_comm _ _
      have m2 : m + y * R ≡ c ^ k.D [MOD R * p] := by
        apply (Nat.modEq_and_modEq_iff_modEq_mul cp).mp
        constructor
        · refine Nat.ModEq.trans ?_ he
          unfold Nat.ModEq
          rw [Nat.add_mul_mod_self_right]
        · rw [← ZMod.natCast_eq_natCast_iff]
          push_cast
          have xc' : (y : ZMod p) = ((c : ZMod p) ^ v.exp - m) * v.coeff := by simpa using xc
          have one : (v.coeff : ZMod p) * (R : ZMod p) = 1 := by have := cast_mod_one p2 t3; push_cast at this; exact this
          have hdd := hd p (by simp)
          have e1 : (c : ZMod p) ^ v.exp = (c : ZMod p) ^ k.D := by
            rw [t1]
            apply pow_congr p1 p2 _ hdd (by intro h; rw [h] at hdd; simp at hdd)
            rw [Nat.mod_mod]
          rw [xc', e1, mul_assoc, one]
          ring
      have hn' := List.nodup_cons.mp hn
      obtain ⟨m', q1, q2, q3⟩ := ih ps (R * p) (m + y * R) t4 m1 m2 (fun q hq => hp q (by simp [hq])) (fun q hq => hd q (by simp [hq])) hn'.2 (by
        intro q hq
        refine Nat.Coprime.mul_left (hc q (by simp [hq])) ((Nat.coprime_primes p1 (hp q (by simp [hq])).1).mpr ?_)
        rintro rfl
        exact hn'.1 hq)
      refine ⟨m', ?_, by rw [List.prod_cons, ← Nat.mul_assoc]; exact q2, by rw [List.prod_cons, ← Nat.mul_assoc]; exact q3⟩
      unfold crtLoop
      dsimp only
      rw [hx, if_neg (by omega), t2]
      push_cast at q1
      exact q1

theorem power_spec {k : PrivKey} (hv : Valid k) (c : Nat) : power k c = .ok (((c ^ k.D % k.pub.N : Nat)) : Int) := by
  unfold power
  cases hpre : k.pre with
  | none => rfl
  | some v =>
    obtain ⟨p, q, ps, e, t1, t2, t3, t4⟩ := hv.pre v hpre
    dsimp only
    rw [e]
    dsimp only
    have memp : p ∈ k.primes := by rw [e]; simp
    have memq : q ∈ k.primes := by rw [e]; simp
    have mems : ∀ r ∈ ps, r ∈ k.primes := by intro r hr; rw [e]; simp [hr]
    obtain ⟨p1, p2⟩ := hv.prime p memp
    obtain ⟨q1, q2⟩ := hv.prime q memq
    have nd := hv.nodup
    rw [e] at nd
    have nd1 := List.nodup_cons.mp nd
    have nd2 := List.nodup_cons.mp nd1.2
    have hp0 : (0 : Int) < p := by omega
    generalize hz : (if ((expMod c v.dp p : Nat) : Int) - (expMod c v.dq q : Nat) < 0 then ((expMod c v.dp p : Nat) : Int) - (expMod c v.dq q : Nat) + p
      else ((expMod c v.dp p : Nat) : Int) - (expMod c v.dq q : Nat)) = z
    have zc : ((z : Int) : ZMod p) = (c : ZMod p) ^ v.dp - ((expMod c v.dq q : Nat) : ZMod p) := by
      rw [← hz]
      split
      · push_cast; rw [cast_expMod]; simp
      · push_cast; rw [cast_expMod]
    generalize hx : z * v.qinv % (p : Int) = x
    have x0 : 0 ≤ x := by rw [← hx]; exact Int.emod_nonneg _ (by omega)
    have x1 : x < p := by rw [← hx]; exact Int.emod_lt_of_pos _ hp0
    have xc : ((x : Int) : ZMod p) = ((c : ZMod p) ^ v.dp - ((expMod c v.dq q : Nat) : ZMod p)) * v.qinv := by
      rw [← hx, cast_emod]; push_cast; rw [zc]
    have xe : x = ((x.toNat : Nat) : Int) := (Int.toNat_of_nonneg x0).symm
    have xl : x.toNat < p := by omega
    generalize x.toNat = y at xe xl
    subst xe
    have m2l : expMod c v.dq q < q := Nat.mod_lt _ (by omega)
    have cp : Nat.Coprime p q := (Nat.coprime_primes p1 q1).mpr (by rintro rfl; exact nd1.1 (by simp))
    have m1 : y * q + expMod c v.dq q < p * q := by
      calc y * q + expMod c v.dq q < y * q + q := by omega
        _ = (y + 1) * q := by ring
        _ ≤ p * q := Nat.mul_le_mul_right _ xl
    have pe : ∀ r, r ∈ k.primes → ∀ x : ZMod r, x ^ (k.D % (r - 1)) = x ^ k.D := by
      intro r hr x
      have hdd := D_mod_ne hv hr
      obtain ⟨r1, r2⟩ := hv.prime r hr
      apply pow_congr r1 r2 _ hdd (by intro h; rw [h] at hdd; simp at hdd)
      rw [Nat.mod_mod]
    have m2 : y * q + expMod c v.dq q ≡ c ^ k.D [MOD p * q] := by
      apply (Nat.modEq_and_modEq_iff_modEq_mul cp).mp
      constructor
      · rw [← ZMod.natCast_eq_natCast_iff]
        push_cast
        have xc' : (y : ZMod p) = ((c : ZMod p) ^ v.dp - ((expMod c v.dq q : Nat) : ZMod p)) * v.qinv := by simpa using xc
        have one : (v.qinv : ZMod p) * (q : ZMod p) = 1 := by have := cast_mod_one p2 t3; push_cast at this; exact this
        rw [xc', mul_assoc, one, t1, pe p memp]
        ring
      · rw [← ZMod.natCast_eq_natCast_iff]
        push_cast
        rw [cast_expMod, t2, pe q memq]
        simp
    obtain ⟨m', r1, r2, r3⟩ := crtLoop_spec (k := k) c v.crt ps (p * q) _ t4 m1 m2 (fun r hr => hv.prime r (mems r hr)) (fun r hr => D_mod_ne hv (mems r hr)) nd2.2 (by
      intro r hr
      refine Nat.Coprime.mul_left ((Nat.coprime_primes p1 (hv.prime r (mems r hr)).1).mpr ?_) ((Nat.coprime_primes q1 (hv.prime r (mems r hr)).1).mpr ?_)
      · rintro rfl; exact nd1.1 (by simp [hr])
      · rintro rfl; exact nd2.1 hr)
    have en : p * q * ps.prod = k.pub.N := by rw [← hv.prod, e, List.prod_cons, List.prod_cons, Nat.mul_assoc]
    rw [en] at r2 r3
    have : m' = c ^ k.D % k.pub.N := by rw [← r3, Nat.mod_eq_of_lt r2]
    rw [this] at r1
    push_cast at r1
    push_cast
    exact r1

theorem modInverse_spec {a n : Nat} {x : Int} (h : modInverse a n = some x) : (a : ZMod n) * ((x : Int) : ZMod n) = 1 := by
  unfold modInverse at h
  by_cases g : Nat.gcd a n ≠ 1
  · rw [if_pos g] at h; exact absurd h (by simp)
  · rw [if_neg g] at h
    have g : Nat.gcd a n = 1 := by simpa using g
    have b := Nat.gcd_eq_gcd_ab a n
    rw [g] at b
    have b' := congrArg (fun z : Int => (z : ZMod n)) b
    push_cast at b'
    have hx : ((x : Int) : ZMod n) = ((Nat.gcdA a n : Int) : ZMod n) := by
      have h := Option.some.inj h
      rw [← h]
      split
      · push_cast; simp
      · rfl
    rw [hx]
    simp at b'
    exact b'.symm

theorem blind_spec {N : Nat} {rs : List Nat} {r : Nat} {ir : Int} (h : blind N rs = .ok (r, ir)) : (r : ZMod N) * ((ir : Int) : ZMod N) = 1 := by
  induction rs with
  | nil => exact absurd h (by simp [blind])
  | cons a rs ih =>
    unfold blind at h
    dsimp only at h
    cases hm : modInverse (if a = 0 then 1 else a) N with
    | none => rw [hm] at h; exact ih h
    | some x =>
      rw [hm] at h
      have h := Res.ok.inj h
      have e1 := congrArg Prod.fst h
      have e2 := congrArg Prod.snd h
      dsimp only at e1 e2
      rw [← e1, ← e2]
      exact modInverse_spec hm

theorem blind_ok {N : Nat} {rs : List Nat} (h : ∃ r ∈ rs, r = 0 ∨ Nat.Coprime r N) : ∃ b, blind N rs = .ok b := by
  induction rs with
  | nil => obtain ⟨r, hr, _⟩ := h; simp at hr
  | cons a rs ih =>
    unfold blind
    dsimp only
    cases hm : modInverse (if a = 0 then 1 else a) N with
    | some x => exact ⟨_, rfl⟩
    | none =>
      apply ih
      obtain ⟨r, hr, hc⟩ := h
      rcases List.mem_cons.mp hr with rfl | hr
      · exfalso
        unfold modInverse at hm
        rw [if_neg] at hm
        · exact absurd hm (by simp)
        · simp only [ne_eq, not_not]
          rcases hc with rfl | hc
          · simp
          · split
            · simp
            · exact hc
      · exact ⟨r, hr, hc⟩

theorem decrypt_spec {k : PrivKey} (hv : Valid k) {rs : List Nat} (hr : ∃ r ∈ rs, r = 0 ∨ Nat.Coprime r k.pub.N) {c : Nat} (hc : c ≤ k.pub.N) :
    decrypt rs k c = .ok ((c ^ k.D % k.pub.N : Nat) : Int) := by
  obtain ⟨⟨r, ir⟩, hb⟩ := blind_ok hr
  have hi := blind_spec hb
  have hN : 0 < k.pub.N := by
    rw [← hv.prod]
    exact List.prod_pos fun p hp => (hv.prime p hp).1.pos
  unfold decrypt
  rw [if_neg (by omega), hb, Res.bind, power_spec hv, Res.bind]
  congr 1
  have key : ((((c * expMod r k.pub.E k.pub.N % k.pub.N) ^ k.D % k.pub.N : Nat) : Int) * ir : Int) ≡ ((c ^ k.D % k.pub.N : Nat) : Int) [ZMOD k.pub.N] := by
    rw [← ZMod.intCast_eq_intCast_iff]
    push_cast
    simp only [cast_expMod]
    have ed : ((r : ZMod k.pub.N) ^ k.pub.E) ^ k.D = r := by
      have := (ZMod.natCast_eq_natCast_iff _ _ _).mpr (pow_ED hv r)
      push_cast at this
      rw [← pow_mul]; exact this
    rw [mul_pow, ed, mul_assoc, hi, mul_one]
  have : ((c ^ k.D % k.pub.N : Nat) : Int) % (k.pub.N : Int) = ((c ^ k.D % k.pub.N : Nat) : Int) := by
    rw [← Int.natCast_mod, Nat.mod_mod]
  rw [← this]
  exact key

theorem zeros_append (n : Nat) (b : Bytes) : setBytes (List.replicate n 0 ++ b) = setBytes b := by
  rw [setBytes_append, show List.replicate n (0 : Byte) = hx n 0 from (Kb.hx_zero n).symm, setBytes_hx n 0 (Nat.pow_pos (by decide))]; omega

theorem pad_eq {k v : Nat} (h : v < 256 ^ k) : List.replicate (k - (natBytes v).length) 0 ++ natBytes v = hx k v := by
  have hl : (natBytes v).length ≤ k := by unfold natBytes; rw [hx_length]; exact byteLen_le.mpr h
  apply setBytes_inj
  · rw [List.length_append, List.length_replicate, hx_length]; omega
  · rw [zeros_append, setBytes_natBytes, setBytes_hx k v h]

theorem leftPad_eq {k v : Nat} (h : v < 256 ^ k) : leftPad (natBytes v) k = hx k v := by
  have hl : (natBytes v).length ≤ k := by unfold natBytes; rw [hx_length]; exact byteLen_le.mpr h
  unfold leftPad
  dsimp only
  rw [if_neg (by omega), List.take_length]
  exact pad_eq h
theorem copyPad_eq {k v : Nat} (h : v < 256 ^ k) : copyPad k (natBytes v) = .ok (hx k v) := by
  have hl : (natBytes v).length ≤ k := by unfold natBytes; rw [hx_length]; exact byteLen_le.mpr h
  unfold copyPad
  rw [if_neg (by omega), pad_eq h]

/-- A number with a zero byte in front is below the modulus. -/
theorem lt_of_zero {N : Nat} {t : Bytes} (hl : byteLen N = t.length + 1) : setBytes (0 :: t) < N := by
  have h : ¬ N < 256 ^ t.length := by
    rw [← byteLen_le]; omega
  have := zeros_append 1 t
  rw [show (List.replicate 1 (0 : Byte) ++ t) = 0 :: t from rfl] at this
  rw [this]
  have := setBytes_lt t
  omega

theorem block_length {k : Nat} {h : Bytes} (hk : h.length + 11 ≤ k) : (block k h).length = k := by
  unfold block
  simp only [List.length_cons, List.length_append, List.length_replicate]
  omega

theorem firstZero_pad (n : Nat) (h : Bytes) : firstZero (List.replicate n 0xff ++ 0 :: h) = n := by
  induction n with
  | zero => simp [firstZero]
  | succ n ih => rw [List.replicate_succ, List.cons_append, firstZero, if_neg (by decide), ih]

theorem pow_inv {k : PrivKey} (hv : Valid k) {x : Nat} (hx : x < k.pub.N) : expMod (x ^ k.D % k.pub.N) k.pub.E k.pub.N = x := by
  unfold expMod
  rw [← Nat.pow_mod, ← pow_mul, Nat.mul_comm]
  have := pow_ED hv x
  unfold Nat.ModEq at this
  rw [this, Nat.mod_eq_of_lt hx]
theorem pow_inv' {k : PrivKey} (hv : Valid k) {x : Nat} (hx : x < k.pub.N) : expMod (x ^ k.pub.E % k.pub.N) k.D k.pub.N = x := by
  unfold expMod
  rw [← Nat.pow_mod, ← pow_mul]
  have := pow_ED hv x
  unfold Nat.ModEq at this
  rw [this, Nat.mod_eq_of_lt hx]

/-- `pubKeyDecrypt` of the block `0 :: t` raised to the private exponent works on the block. -/
theorem pubKeyDecrypt_of {k : PrivKey} (hv : Valid k) {d1 : Byte} {t : Bytes} (hl : byteLen k.pub.N = t.length + 2) :
    pubKeyDecrypt k.pub (hx (byteLen k.pub.N) (setBytes (0 :: d1 :: t) ^ k.D % k.pub.N)) =
      (if d1 ≠ 0 ∧ d1 ≠ 1 then .err else if 2 + firstZero t + 1 = t.length + 2 then .ok []
        else if t.length + 2 < 2 + firstZero t + 1 then .panic else .ok ((0 :: d1 :: t).drop (2 + firstZero t + 1))) := by
  have hN : 0 < k.pub.N := by
    rw [← hv.prod]
    exact List.prod_pos fun p hp => (hv.prime p hp).1.pos
  have hlt : setBytes (0 :: d1 :: t) < k.pub.N := lt_of_zero (by rw [List.length_cons]; omega)
  have hm : setBytes (0 :: d1 :: t) ^ k.D % k.pub.N < k.pub.N := Nat.mod_lt _ hN
  have h256 := lt_pow_byteLen k.pub.N
  unfold pubKeyDecrypt
  dsimp only
  rw [if_neg (by rw [hx_length]; simp), setBytes_hx _ _ (by omega), if_neg (by omega), pow_inv hv hlt, leftPad_eq (by omega), hl]
  have e := hx_setBytes (0 :: d1 :: t)
  rw [List.length_cons, List.length_cons] at e
  rw [e]
  dsimp only
  rw [if_neg (by simp)]
  simp only [List.length_cons]

theorem priKeyEncrypt_spec {k : PrivKey} (hv : Valid k) {rs : List Nat} (hr : ∃ r ∈ rs, r = 0 ∨ Nat.Coprime r k.pub.N) {h : Bytes} (hl : h.length + 11 ≤ byteLen k.pub.N) :
    priKeyEncrypt rs k h = .ok (hx (byteLen k.pub.N) (setBytes (block (byteLen k.pub.N) h) ^ k.D % k.pub.N)) := by
  have hN : 0 < k.pub.N := by
    rw [← hv.prod]
    exact List.prod_pos fun p hp => (hv.prime p hp).1.pos
  have hb := block_length hl
  have hlt : setBytes (block (byteLen k.pub.N) h) < k.pub.N := by
    unfold block at hb ⊢
    exact lt_of_zero (by rw [List.length_cons] at hb; omega)
  unfold priKeyEncrypt
  dsimp only
  rw [if_neg (by omega), decrypt_spec hv hr (by omega), Res.bind, Int.toNat_natCast]
  refine copyPad_eq (Nat.lt_trans (Nat.mod_lt _ hN) (lt_pow_byteLen _))

theorem io_parts {f : Nat → Bytes → Res Bytes} {k : Nat} (hk : 0 < k) (hf : ∀ i b r, f i b = .ok r → b.length = k) (fuel i : Nat) (inp r : Bytes) (h : io f k fuel i inp = .ok r) :
    inp.length % k = 0 := by
  induction fuel generalizing i inp r with
  | zero => exact absurd h (by simp [io])
  | succ fuel ih =>
    unfold io at h
    by_cases he : inp = []
    · simp [he]
    · rw [if_neg he] at h
      cases h1 : f i (inp.take k) with
      | ok b =>
        have hl := hf _ _ _ h1
        rw [List.length_take] at hl
        rw [h1, Res.bind] at h
        cases h2 : io f k fuel (i + 1) (inp.drop k) with
        | ok s =>
          have := ih _ _ _ h2
          rw [List.length_drop] at this
          rw [Nat.mod_eq_sub_mod (by omega)]
          exact this
        | err => rw [h2] at h; exact absurd h (by simp [Res.bind])
        | panic => rw [h2] at h; exact absurd h (by simp [Res.bind])
        | hang => rw [h2] at h; exact absurd h (by simp [Res.bind])
      | err => rw [h1] at h; exact absurd h (by simp [Res.bind])
      | panic => rw [h1] at h; exact absurd h (by simp [Res.bind])
      | hang => rw [h1] at h; exact absurd h (by simp [Res.bind])

theorem io_ok {f : Nat → Bytes → Res Bytes} {k l : Nat} (hk : 0 < k) (hf : ∀ i b, b.length ≤ k → ∃ r, f i b = .ok r ∧ r.length = l) (fuel i : Nat) (inp : Bytes) (hfu : inp.length < fuel) :
    ∃ r, io f k fuel i inp = .ok r ∧ r.length % l = 0 ∧ (inp ≠ [] → l ≤ r.length) := by
  induction fuel generalizing i inp with
  | zero => omega
  | succ fuel ih =>
    unfold io
    by_cases he : inp = []
    · rw [if_pos he]; exact ⟨[], rfl, by simp, fun h => absurd he h⟩
    · rw [if_neg he]
      obtain ⟨b, hb, hl⟩ := hf i (inp.take k) (by rw [List.length_take]; omega)
      have : 0 < inp.length := List.length_pos_of_ne_nil he
      obtain ⟨r, hr, hm, _⟩ := ih (i + 1) (inp.drop k) (by rw [List.length_drop]; omega)
      rw [hb, Res.bind, hr, Res.bind]
      refine ⟨_, rfl, ?_, fun _ => ?_⟩
      · rw [List.length_append, hl, Nat.add_mod_left]; exact hm
      · rw [List.length_append]; omega

end Verif.Pub.Rsa
