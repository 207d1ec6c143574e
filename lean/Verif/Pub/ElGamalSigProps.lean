import Verif.Pub.ElGamalProps
/-
C100: ElGamal signatures (pubkey/elgamal).  C101: the variant of pubkey/egdsa.  The specification `Spec.Valid` is the
equation of ElGamal in the field of integers modulo `P`.
-/
namespace Verif.Pub.ElGamal
open Verif.Cipher Verif.Kdf

theorem verifyM_iff (pub : EPub) (hp : 0 < pub.P) (m : Nat) (r s : Int) :
    verifyM pub m r s = .ok true ↔ 0 ≤ r ∧ r ≤ pub.P ∧ 0 ≤ s ∧ s ≤ (pub.P : Int) - 1 ∧
      (pub.G : ZMod pub.P) ^ m = (pub.Y : ZMod pub.P) ^ r.toNat * (r : ZMod pub.P) ^ s.toNat := by
  rw [verifyM]
  split
  · simp; intros; omega
  split
  · simp; intros; omega
  split
  · simp; intros; omega
  split
  · simp; intros; omega
  simp only
  have hr : ((r.toNat : Nat) : ZMod pub.P) = (r : ZMod pub.P) := by
    rw [← Int.cast_natCast, Int.toNat_of_nonneg (by omega)]
  have key : expMod pub.G m pub.P = expMod pub.Y r.toNat pub.P * expMod r.toNat s.toNat pub.P % pub.P ↔
      (pub.G : ZMod pub.P) ^ m = (pub.Y : ZMod pub.P) ^ r.toNat * (r : ZMod pub.P) ^ s.toNat := by
    rw [← hr, ← expMod_cast, ← expMod_cast pub.Y, ← expMod_cast r.toNat, ← Nat.cast_mul, ZMod.natCast_eq_natCast_iff', 
      Nat.mod_eq_of_lt (expMod_lt _ _ hp)]
  split
  · rename_i h
    simp only [true_iff]
    exact ⟨by omega, by omega, by omega, by omega, key.mp h⟩
  · rename_i h
    constructor
    · intro h; cases h
    · rintro ⟨-, -, -, -, h'⟩; exact absurd (key.mpr h') h

theorem verifyM_total (pub : EPub) (m : Nat) (r s : Int) : verifyM pub m r s = .ok true ∨ verifyM pub m r s = .err := by
  rw [verifyM]
  split
  · exact .inr rfl
  split
  · exact .inr rfl
  split
  · exact .inr rfl
  split
  · exact .inr rfl
  simp only
  split
  · exact .inl rfl
  · exact .inr rfl

/-- C100. `Verify` accepts or returns an error, for all keys, hashes and integers; inside the ranges `0 < r < p`,
`0 < s < p − 1` it accepts exactly the valid signatures; outside the ranges `0 ≤ r ≤ p`, `0 ≤ s ≤ p − 1` it accepts
nothing.  Missing from the full claim: the ends of the ranges (`C100_zero_violated`, `C100_ends_violated`). -/
theorem C100_verify_partial (pub : EPub) (hp : 0 < pub.P) (hash : Bytes) (r s : Int) :
    (verify pub hash r s = .ok true ∨ verify pub hash r s = .err) ∧
    (r ≠ 0 → r ≠ pub.P → s ≠ 0 → s ≠ (pub.P : Int) - 1 → (verify pub hash r s = .ok true ↔ Spec.Valid pub (setBytes hash) r s)) := by
  refine ⟨verifyM_total _ _ _ _, fun h1 h2 h3 h4 => ?_⟩
  rw [verify, verifyM_iff pub hp, Spec.Valid]
  constructor
  · rintro ⟨a, b, c, d, e⟩; exact ⟨by omega, by omega, by omega, by omega, e⟩
  · rintro ⟨a, b, c, d, e⟩; exact ⟨by omega, by omega, by omega, by omega, e⟩

/-- C100, against the rejection of invalid signatures: for every key, `r = 0` and `s = 0` is accepted for every hash whose
number is a multiple of `p − 1` or zero. -/
theorem C100_zero_violated (k : EKey) (hk : Spec.IsKey k) (hash : Bytes) (hm : k.P - 1 ∣ setBytes hash) :
    verify k.toEPub hash 0 0 = .ok true ∧ ¬ Spec.Valid k.toEPub (setBytes hash) 0 0 := by
  have : Fact k.P.Prime := ⟨hk.prime⟩
  have h2 := hk.prime.two_le
  constructor
  · rw [verify, verifyM_iff _ hk.prime.pos]
    refine ⟨by omega, by simp, by omega, by omega, ?_⟩
    obtain ⟨t, ht⟩ := hm
    rw [ht, pow_mul, ZMod.pow_card_sub_one_eq_one hk.unit]
    simp
  · rintro ⟨h, -⟩; omega

/-- C100. The same at the upper ends: if `(r, 0)` is accepted then so is `(r, p − 1)`, for every `r` that is not a multiple
of `p`: a second signature of the same hash. -/
theorem C100_ends_violated (k : EKey) (hk : Spec.IsKey k) (hash : Bytes) (r : Nat) (hr : ¬ k.P ∣ r) (h : verify k.toEPub hash r 0 = .ok true) :
    verify k.toEPub hash r (k.P - 1 : Nat) = .ok true := by
  have : Fact k.P.Prime := ⟨hk.prime⟩
  have h2 := hk.prime.two_le
  rw [verify, verifyM_iff _ hk.prime.pos] at h ⊢
  obtain ⟨a, b, c, d, e⟩ := h
  refine ⟨a, b, by omega, by omega, ?_⟩
  rw [e]
  have hz : ((r : Int) : ZMod k.P) ≠ 0 := by rw [Int.cast_natCast, Ne, ZMod.natCast_eq_zero_iff]; exact hr
  rw [Int.toNat_natCast (k.P - 1), ZMod.pow_card_sub_one_eq_one hz]
  simp

theorem modInv_coprime {a n : Nat} (hn : 1 < n) (h : Nat.gcd a n = 1) : ∃ x, modInv a n = some x ∧ x < n ∧ a * x % n = 1 := by
  obtain ⟨m, hm, hlt⟩ : ∃ m, a * m % n = 1 ∧ m < n := by
    obtain ⟨m, hm⟩ := Nat.exists_mul_mod_eq_one_of_coprime h hn
    exact ⟨m % n, by rw [Nat.mul_mod_mod]; exact hm.2, Nat.mod_lt _ (by omega)⟩
  have hs : (modInv a n).isSome := by
    rw [modInv, List.find?_isSome]
    exact ⟨m, by simpa using hlt, by rw [beq_iff_eq, hm, Nat.mod_eq_of_lt hn]⟩
  obtain ⟨x, hx⟩ := Option.isSome_iff_exists.mp hs
  have ⟨h1, h2⟩ := modInv_some hx
  exact ⟨x, hx, h1, by rw [h2, Nat.mod_eq_of_lt hn]⟩

theorem signK_spec (P : Nat) (hP : 3 < P) : ∀ fuel rd, rd.length < fuel →
    signK P fuel rd = .err ∨ ∃ k, signK P fuel rd = .ok k ∧ 1 < k ∧ k < P - 2 ∧ Nat.gcd k (P - 1) = 1
  | 0, rd, h => by omega
  | fuel + 1, rd, h => by
    rw [signK]
    rcases randInt_spec ((P : Int) - 2) (by omega) rd with he | ⟨v, rest, he, hv, -, hl⟩
    · left; rw [he]
    rw [he]
    have hl := hl (by omega)
    simp only
    split
    · exact signK_spec P hP fuel rest (by omega)
    rename_i h1
    split
    · rename_i hg
      refine .inr ⟨v, rfl, ?_, by omega, hg⟩
      rcases Nat.eq_zero_or_pos v with rfl | h0
      · simp at hg; omega
      · omega
    · exact signK_spec P hP fuel rest (by omega)

/-- The equation of a signature, from `s·k ≡ m − x·r` modulo `p − 1`. -/
theorem sig_eq (k : EKey) (hk : Spec.IsKey k) (m r s κ : Nat) (hr : (r : ZMod k.P) = (k.G : ZMod k.P) ^ κ)
    (hs : m ≡ k.X * r + κ * s [MOD (k.P - 1)]) :
    (k.G : ZMod k.P) ^ m = (k.Y : ZMod k.P) ^ r * (r : ZMod k.P) ^ s := by
  have : Fact k.P.Prime := ⟨hk.prime⟩
  rw [pow_eq_pow_of_modEq hs (ZMod.pow_card_sub_one_eq_one hk.unit), hk.pub, pow_add, pow_mul, pow_mul]
  rw [hr]

theorem modEq_of_inv {n k k' m xr : Nat} {s : Nat} (hn : 1 < n) (hk : k * k' % n = 1) (hs : (s : Int) = ((m : Int) - xr) * k' % n) :
    m ≡ xr + k * s [MOD n] := by
  have hcop : (k : ZMod n) * k' = 1 := by
    have : ((k * k' : Nat) : ZMod n) = ((1 : Nat) : ZMod n) := by
      rw [ZMod.natCast_eq_natCast_iff', hk, Nat.mod_eq_of_lt hn]
    exact_mod_cast this
  have hsz : (s : ZMod n) = ((m : ZMod n) - xr) * k' := by
    have := congrArg (Int.cast : Int → ZMod n) hs
    rw [ZMod.intCast_mod] at this
    exact_mod_cast this
  rw [← ZMod.natCast_eq_natCast_iff]
  push_cast
  rw [hsz]
  linear_combination -((m : ZMod n) - xr) * hcop

/-- C100. `Sign`, for every key pair with a modulus above 3, every hash and random source: the error of the random source,
or numbers that satisfy the equation with `0 < r < p` and `s < p − 1`, which `Verify` accepts; a valid signature unless
`s = 0`.  Missing from the full claim: that `s` is never zero (`C100_sign_zero_violated`). -/
theorem C100_sign_partial (k : EKey) (hk : Spec.IsKey k) (hP : 3 < k.P) (rd hash : Bytes) :
    sign rd k hash = .err ∨ ∃ r s : Nat, sign rd k hash = .ok (r, s) ∧ 0 < r ∧ r < k.P ∧ s < k.P - 1 ∧
      (k.G : ZMod k.P) ^ setBytes hash = (k.Y : ZMod k.P) ^ r * (r : ZMod k.P) ^ s ∧
      verify k.toEPub hash r s = .ok true ∧ (s ≠ 0 → Spec.Valid k.toEPub (setBytes hash) r s) := by
  have : Fact k.P.Prime := ⟨hk.prime⟩
  rw [sign]
  rcases signK_spec k.P hP (rd.length + 1) rd (by omega) with h | ⟨κ, h, h1, h2, hg⟩
  · left; rw [h]; rfl
  right
  rw [h]
  obtain ⟨v, hv, hvl, hvm⟩ := modInv_coprime (by omega : 1 < k.P - 1) hg
  simp only [Res.bind_ok, hv]
  have hrz : ((expMod k.G κ k.P : Nat) : ZMod k.P) ≠ 0 := by rw [expMod_cast]; exact pow_ne_zero _ hk.unit
  have hr0 : 0 < expMod k.G κ k.P := Nat.pos_of_ne_zero fun h => hrz (by rw [h]; simp)
  have hrl := expMod_lt k.G κ hk.prime.pos
  have hnn : ∀ z : Int, 0 ≤ z % ((k.P - 1 : Nat) : Int) ∧ z % ((k.P - 1 : Nat) : Int) < ((k.P - 1 : Nat) : Int) := fun z =>
    ⟨Int.emod_nonneg _ (by omega), Int.emod_lt_of_pos _ (by omega)⟩
  have hz := hnn (((setBytes hash : Int) - (expMod k.G κ k.P * k.X % (k.P - 1) : Nat)) * v)
  have hme := modEq_of_inv (by omega : 1 < k.P - 1) hvm (Int.toNat_of_nonneg hz.1)
  generalize hsd : ((((setBytes hash : Int) - (expMod k.G κ k.P * k.X % (k.P - 1) : Nat)) * v) % ((k.P - 1 : Nat) : Int)).toNat = s at hme
  have hsl : s < k.P - 1 := by omega
  have he := sig_eq k hk (setBytes hash) _ s κ (expMod_cast k.G κ k.P)
    (hme.trans (Nat.ModEq.add_right _ ((Nat.mod_modEq _ _).trans (by rw [mul_comm]))))
  refine ⟨_, s, by rw [← hsd], hr0, hrl, hsl, he, ?_, fun hs0 => ?_⟩
  · rw [verify, verifyM_iff _ hk.prime.pos]
    exact ⟨by omega, by omega, by omega, by omega, by simpa using he⟩
  · exact ⟨by omega, by omega, by omega, by omega, by simpa using he⟩

/-- C100. `SignBytes` and `VerifyBytes`: the signature is the two numbers in as many bytes as `P` has bits, and `VerifyBytes`
accepts it; other lengths are an error. -/
theorem C100_bytes (k : EKey) (hk : Spec.IsKey k) (hP : 3 < k.P) (rd hash : Bytes) :
    (signBytes rd k hash = .err ∨ ∃ sig, signBytes rd k hash = .ok sig ∧ sig.length = 2 * bitLen k.P ∧ verifyBytes k.toEPub hash sig = .ok true) ∧
    ∀ sig, sig.length ≠ 2 * bitLen k.P → verifyBytes k.toEPub hash sig = .err := by
  refine ⟨?_, fun sig h => by rw [verifyBytes]; exact if_pos h⟩
  have hb := pow_bitLen' k.P
  rcases C100_sign_partial k hk hP rd hash with h | ⟨r, s, h, h0, hr, hs, -, hv, -⟩
  · left; rw [signBytes, h]; rfl
  right
  refine ⟨hx (bitLen k.P) r ++ hx (bitLen k.P) s, ?_, by simp; omega, ?_⟩
  · rw [signBytes, h]
    simp [fillBytes_ok (show r < 256 ^ bitLen k.P by omega), fillBytes_ok (show s < 256 ^ bitLen k.P by omega)]
  · rw [verifyBytes, if_neg (by simp; omega), List.take_left' (by simp), List.drop_left' (by simp), setBytes_hx _ _ (by omega), setBytes_hx _ _ (by omega)]
    exact hv

/-- C100. The key of `GenerateKey`: for primes `p = 2q + 1` the generator found has order `q`, and the key is a key pair. -/
theorem C100_generate (p q x : Nat) (hp : p.Prime) (hq : q.Prime) (rd : Bytes) :
    genKey p q x rd = .err ∨ ∃ k, genKey p q x rd = .ok k ∧ k.P = p ∧ k.X = x ∧ Spec.IsKey k ∧ orderOf (k.G : ZMod p) = q := by
  have h1 := hp.one_lt
  have aux : ∀ fuel rd, rd.length < fuel → genG p q fuel rd = .err ∨ ∃ g rest, genG p q fuel rd = .ok (g, rest) ∧
      expMod g 2 p ≠ 1 ∧ expMod g q p = 1 := by
    intro fuel
    induction fuel with
    | zero => intro rd h; omega
    | succ fuel ih =>
      intro rd h
      rw [genG]
      rcases randInt_spec p (by omega) rd with he | ⟨g, rest, he, -, -, hl⟩
      · left; rw [he]
      have hl := hl (by omega)
      rw [he]
      simp only
      split
      · exact ih rest (by omega)
      rename_i h2
      split
      · rename_i hq
        exact .inr ⟨g, rest, rfl, h2, hq⟩
      · exact ih rest (by omega)
  rw [genKey]
  rcases aux (rd.length + 1) rd (by omega) with h | ⟨g, rest, h, g2, gq⟩
  · left; rw [h]; rfl
  rw [h]
  have : Fact p.Prime := ⟨hp⟩
  have e2 : (g : ZMod p) ^ 2 ≠ 1 := by
    rw [← expMod_cast]
    intro he
    apply g2
    have := (ZMod.natCast_eq_natCast_iff' _ 1 p).mp (by simpa using he)
    rwa [Nat.mod_eq_of_lt (expMod_lt _ _ hp.pos), Nat.mod_eq_of_lt h1] at this
  have eq : (g : ZMod p) ^ q = 1 := by
    rw [← expMod_cast, gq, Nat.cast_one]
  have ho : orderOf (g : ZMod p) = q := by
    rcases (Nat.dvd_prime hq).mp (orderOf_dvd_of_pow_eq_one eq) with h | h
    · rw [orderOf_eq_one_iff] at h
      exact absurd (by rw [h, one_pow]) e2
    · exact h
  have hg0 : (g : ZMod p) ≠ 0 := by
    intro h
    rw [h, zero_pow hq.ne_zero] at eq
    exact zero_ne_one eq
  exact .inr ⟨_, rfl, rfl, rfl, ⟨hp, hg0, expMod_cast g x p, expMod_lt _ _ hp.pos⟩, ho⟩

/-- A small key. -/
def toyKey23 : EKey := { P := 23, G := 5, Y := 8, X := 6 }

instance : Fact (Nat.Prime 23) := ⟨by norm_num⟩

theorem toyKey23_isKey : Spec.IsKey toyKey23 := ⟨by norm_num [toyKey23], by decide, by decide, by decide⟩

/-- C100, against the claim that signatures are valid: `Sign` can return `s = 0`, from which the private key follows
(`x = m/r`). -/
theorem C100_sign_zero_violated : Spec.IsKey toyKey23 ∧ sign [3] toyKey23 [16] = .ok (10, 0) ∧ ¬ Spec.Valid toyKey23.toEPub 16 10 0 := by
  refine ⟨toyKey23_isKey, by decide +kernel, ?_⟩
  rintro ⟨-, -, h, -⟩; omega

example : sign [7] toyKey23 [16] = .ok (17, 16) ∧ verify toyKey23.toEPub [16] 17 16 = .ok true ∧ verify toyKey23.toEPub [17] 17 16 = .err := by decide +kernel
example : (22 : Nat) ∣ setBytes [44] ∧ verify toyKey23.toEPub [44] 0 0 = .ok true ∧ verify toyKey23.toEPub [] 0 0 = .ok true := by decide +kernel
example : genKey 23 11 6 [0, 1, 5, 22, 4] = .ok { P := 23, G := 4, Y := 2, X := 6 } := by decide +kernel

/-! ### C101 -/

/-- The number that is signed: between 2 and `p − 2`. -/
def Spec.egNum (P : Nat) (hash : Bytes) : Nat := setBytes hash % (P - 3) + 2

theorem egM_eq (P : Nat) (hP : 3 < P) (hash : Bytes) : egM P hash = .ok (Spec.egNum P hash) := by
  have h : ((P : Int) - 3).natAbs = P - 3 := by omega
  rw [egM]
  rw [if_neg (by omega), h, Spec.egNum]

theorem egVerify_eq (pub : EPub) (hP : 3 < pub.P) (hash : Bytes) (r s : Int) :
    egVerify pub hash r s = verifyM pub (Spec.egNum pub.P hash) r s := by
  rw [egVerify, egM_eq _ hP]
  by_cases h1 : r < 0
  · rw [if_pos h1, verifyM, if_pos h1]
  by_cases h2 : r > pub.P
  · rw [if_neg h1, if_pos h2, verifyM, if_neg h1, if_pos h2]
  by_cases h3 : s < 0
  · rw [if_neg h1, if_neg h2, if_pos h3, verifyM, if_neg h1, if_neg h2, if_pos h3]
  by_cases h4 : s > (pub.P : Int) - 1
  · rw [if_neg h1, if_neg h2, if_neg h3, if_pos h4, verifyM, if_neg h1, if_neg h2, if_neg h3, if_pos h4]
  rw [if_neg h1, if_neg h2, if_neg h3, if_neg h4, Res.bind_ok]

/-- C101. `Verify` of egdsa accepts or returns an error for all keys with a modulus above 3, hashes and integers, and inside
the ranges it accepts exactly the valid signatures.  Missing from the full claim: the ends of the ranges. -/
theorem C101_verify_partial (pub : EPub) (hP : 3 < pub.P) (hash : Bytes) (r s : Int) :
    (egVerify pub hash r s = .ok true ∨ egVerify pub hash r s = .err) ∧
    (r ≠ 0 → r ≠ pub.P → s ≠ 0 → s ≠ (pub.P : Int) - 1 → (egVerify pub hash r s = .ok true ↔ Spec.Valid pub (Spec.egNum pub.P hash) r s)) := by
  rw [egVerify_eq pub hP]
  refine ⟨verifyM_total _ _ _ _, fun h1 h2 h3 h4 => ?_⟩
  rw [verifyM_iff pub (by omega), Spec.Valid]
  constructor
  · rintro ⟨a, b, c, d, e⟩; exact ⟨by omega, by omega, by omega, by omega, e⟩
  · rintro ⟨a, b, c, d, e⟩; exact ⟨by omega, by omega, by omega, by omega, e⟩

theorem egK_spec (P : Nat) (hP : 3 < P) : ∀ fuel rd, rd.length < fuel →
    egK P fuel rd = .err ∨ ∃ k : Int, egK P fuel rd = .ok k ∧ -1 ≤ k ∧ k < (P : Int) - 1 ∧ Int.gcd k ((P : Int) - 1) = 1
  | 0, rd, h => by omega
  | fuel + 1, rd, h => by
    rw [egK]
    rcases randInt_spec P (by omega) rd with he | ⟨v, rest, he, hv, -, hl⟩
    · left; rw [he]
    rw [he]
    have hl := hl (by omega)
    simp only
    split
    · rename_i hg
      exact .inr ⟨_, rfl, by omega, by omega, hg⟩
    · exact egK_spec P hP fuel rest (by omega)

theorem expZ_spec (G P : Nat) [hp : Fact P.Prime] (hG : (G : ZMod P) ≠ 0) (k : Int) (h1 : -1 ≤ k) (h2 : k < (P : Int) - 1) :
    ∃ r, expZ G k P = .ok r ∧ r < P ∧ (r : ZMod P) = (G : ZMod P) ^ (k % ((P : Int) - 1)).toNat := by
  have hpos := hp.out.pos
  rw [expZ]
  by_cases h : 0 ≤ k
  · rw [if_pos h]
    exact ⟨_, rfl, expMod_lt _ _ hpos, by rw [expMod_cast, Int.emod_eq_of_lt h h2]⟩
  · rw [if_neg h]
    obtain rfl : k = -1 := by omega
    obtain ⟨v, hv, hvl, hm⟩ := modInv_prime hp.out (a := G) (by rwa [← ZMod.natCast_eq_zero_iff])
    rw [hv]
    refine ⟨_, rfl, expMod_lt _ _ hpos, ?_⟩
    have e : ((-1 : Int) % ((P : Int) - 1)).toNat = P - 2 := by
      have := hp.out.two_le
      rcases Nat.lt_or_ge 2 P with h3 | h3
      · rw [show (-1 : Int) % ((P : Int) - 1) = ((-1) + ((P : Int) - 1)) % ((P : Int) - 1) by rw [Int.add_emod_right], Int.emod_eq_of_lt (by omega) (by omega)]
        omega
      · obtain rfl : P = 2 := by omega
        rfl
    rw [e, expMod_cast]
    have hf := ZMod.pow_card_sub_one_eq_one hG
    rw [show P - 1 = P - 2 + 1 by have := hp.out.two_le; omega, pow_succ] at hf
    simp only [neg_neg, Int.toNat_one, pow_one]
    exact mul_left_cancel₀ hG (by rw [hm, mul_comm]; exact hf.symm)

/-- C101. `Sign` of egdsa, for every key pair with a modulus above 3, every hash and random source: the error of the random
source, or numbers that satisfy the equation with `0 < r < p` and `s < p − 1`, which `Verify` accepts; a valid signature
unless `s = 0`.  (This includes `k = −1`, when the random number is zero.) -/
theorem C101_sign_partial (k : EKey) (hk : Spec.IsKey k) (hP : 3 < k.P) (rd hash : Bytes) :
    egSign rd k hash = .err ∨ ∃ r s : Nat, egSign rd k hash = .ok (r, s) ∧ 0 < r ∧ r < k.P ∧ s < k.P - 1 ∧
      egVerify k.toEPub hash r s = .ok true ∧ (s ≠ 0 → Spec.Valid k.toEPub (Spec.egNum k.P hash) r s) := by
  have : Fact k.P.Prime := ⟨hk.prime⟩
  rw [egSign]
  rcases egK_spec k.P hP (rd.length + 1) rd (by omega) with h | ⟨κ, h, h1, h2, hg⟩
  · left; rw [h]; rfl
  right
  obtain ⟨r, hr, hrl, hrc⟩ := expZ_spec k.G k.P hk.unit κ h1 h2
  rw [h]
  simp only [Res.bind_ok, egM_eq k.P hP, hr]
  have hnn : ∀ z : Int, 0 ≤ z % ((k.P : Int) - 1) ∧ z % ((k.P : Int) - 1) < (k.P : Int) - 1 := fun z =>
    ⟨Int.emod_nonneg _ (by omega), Int.emod_lt_of_pos _ (by omega)⟩
  have hkn := hnn κ
  have hg' : Nat.gcd (κ % ((k.P : Int) - 1)).toNat (k.P - 1) = 1 := by
    have e : Int.gcd (κ % ((k.P : Int) - 1)) ((k.P : Int) - 1) = 1 := by rw [Int.gcd_emod]; exact hg
    rw [Int.gcd_eq_natAbs_gcd_natAbs] at e
    convert e using 2 <;> omega
  obtain ⟨v, hv, hvl, hvm⟩ := modInv_coprime (by omega : 1 < k.P - 1) hg'
  rw [hv]
  have hrz : (r : ZMod k.P) ≠ 0 := by rw [hrc]; exact pow_ne_zero _ hk.unit
  have hr0 : 0 < r := Nat.pos_of_ne_zero fun h => hrz (by rw [h]; simp)
  generalize hm : Spec.egNum k.P hash = m
  obtain ⟨s, hs⟩ : ∃ s : Nat, (s : Int) = ((m : Int) - (r * k.X - k.P * ((k.P : Int) - 1))) % ((k.P : Int) - 1) * v % ((k.P : Int) - 1) :=
    ⟨_, Int.toNat_of_nonneg (hnn _).1⟩
  have hsl := (hnn (((m : Int) - (r * k.X - k.P * ((k.P : Int) - 1))) % ((k.P : Int) - 1) * v)).2
  rw [← hs] at hsl
  have hpc : ((k.P : Int) - 1) = ((k.P - 1 : Nat) : Int) := by omega
  have hs' : (s : Int) = ((m : Int) - (r * k.X : Nat)) * v % ((k.P - 1 : Nat) : Int) := by
    rw [hs, ← hpc]
    push_cast
    exact (((Int.mod_modEq _ _).trans (Int.modEq_iff_dvd.mpr ⟨-k.P, by ring⟩)).mul_right _)
  have hme := modEq_of_inv (by omega : 1 < k.P - 1) hvm hs'
  have he := sig_eq k hk m r s _ hrc (by rw [mul_comm k.X]; exact hme)
  refine ⟨r, s, ?_, hr0, hrl, by omega, ?_, fun hs0 => ?_⟩
  · simp only [← hs, Int.toNat_natCast]
  · rw [egVerify_eq _ hP, verifyM_iff _ hk.prime.pos, hm]
    exact ⟨by omega, by omega, by omega, by omega, by simpa using he⟩
  · exact ⟨by omega, by omega, by omega, by omega, by simpa using he⟩

/-- C101, against the rejection of invalid signatures: for every key, `r = 0` and `s = 0` is accepted for every hash whose
number is a multiple of the order of the generator. -/
theorem C101_zero_violated (k : EKey) (hk : Spec.IsKey k) (hP : 3 < k.P) (hash : Bytes) (hm : orderOf (k.G : ZMod k.P) ∣ Spec.egNum k.P hash) :
    egVerify k.toEPub hash 0 0 = .ok true ∧ ¬ Spec.Valid k.toEPub (Spec.egNum k.P hash) 0 0 := by
  constructor
  · rw [egVerify_eq _ hP, verifyM_iff _ hk.prime.pos]
    refine ⟨by omega, by simp, by omega, by omega, ?_⟩
    rw [orderOf_dvd_iff_pow_eq_one.mp hm]
    simp
  · rintro ⟨h, -⟩; omega

example : egSign [2] toyKey23 [16] = .ok (5, 10) ∧ egVerify toyKey23.toEPub [16] 5 10 = .ok true ∧ egVerify toyKey23.toEPub [17] 5 10 = .err := by decide +kernel
example : Spec.egNum 23 [0] = 2 ∧ egVerify { P := 23, G := 22, Y := 1 } [0] 0 0 = .ok true := by decide +kernel

/-- C101, against the claim that signatures are valid: with the random number 0 (`k = −1`) `Sign` returns `s = 0` here. -/
theorem C101_sign_zero_violated : Spec.IsKey toyKey23 ∧ egSign [0] toyKey23 [16] = .ok (14, 0) ∧ ¬ Spec.Valid toyKey23.toEPub (Spec.egNum 23 [16]) 14 0 := by
  refine ⟨toyKey23_isKey, by decide +kernel, ?_⟩
  rintro ⟨-, -, h, -⟩; omega

end Verif.Pub.ElGamal
