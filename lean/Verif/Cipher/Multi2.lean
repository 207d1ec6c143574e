import Verif.Cipher.Common2
/-
Model of cipher/multi2 (multi2.go, utils.go).
-/
namespace Verif.Cipher.Multi2

abbrev W := BitVec 32
abbrev St := W × W

/-- utils.go:42-44 -/
def pi1 (p : St) : St := (p.1, p.2 ^^^ p.1)
/-- utils.go:46-54; `k` is the slice of the keys from `t` on, as a function. -/
def pi2 (k : Nat → W) (p : St) : St :=
  let t := p.2 + k 0
  let t := rotl t 1 + t - 1
  let t := rotl t 4 ^^^ t
  (p.1 ^^^ t, p.2)
/-- utils.go:56-68 -/
def pi3 (k : Nat → W) (p : St) : St :=
  let t := p.1 + k 1
  let t := rotl t 2 + t + 1
  let t := rotl t 8 ^^^ t
  let t := t + k 2
  let t := rotl t 1 - t
  let t := rotl t 16 ^^^ (p.1 ||| t)
  (p.1, p.2 ^^^ t)
/-- utils.go:70-77 -/
def pi4 (k : Nat → W) (p : St) : St :=
  let t := p.2 + k 3
  let t := rotl t 2 + t + 1
  (p.1 ^^^ t, p.2)

/-- utils.go:79-122 `setup`, multi2.go:87-99 `expandKey` -/
def setup (key : Bytes) : List W :=
  let w := ldBE 32 4 10 key
  let k := fun i => w.getD i 0
  let k' := fun i => w.getD (4 + i) 0
  let p0 := pi1 (k 8, k 9)
  let p1 := pi2 k p0
  let p2 := pi3 k p1
  let p3 := pi4 k p2
  let p4 := pi1 p3
  let p5 := pi2 k' p4
  let p6 := pi3 k' p5
  let p7 := pi4 k' p6
  let p8 := pi1 p7
  [p1.1, p2.2, p3.1, p4.2, p5.1, p6.2, p7.1, p8.2]

/-- `uk[t:]` for `t = 0` or 4 -/
def half (uk : List W) (h : Bool) (i : Nat) : W := uk.getD (if h then 4 + i else i) 0

/-- utils.go:130-151: step number `n`, counted from 0. -/
def step (uk : List W) (p : St) (n : Nat) : St :=
  let k := half uk (n / 4 % 2 == 1)
  if n % 4 = 0 then pi1 p else if n % 4 = 1 then pi2 k p else if n % 4 = 2 then pi3 k p else pi4 k p

/-- utils.go:124-156 `encrypt`: the loop makes a step, counts it in an `int32`, and stops when the count is `N`: that is after `N` steps for `N > 0`, after
`2 ^ 32 + N` steps for `N ≤ 0`, when the counter has wrapped around. -/
def enc (uk : List W) (N : Int) (p : St) : St := (List.range (if 0 < N then N.toNat else (2 ^ 32 + N).toNat)).foldl (step uk) p

/-- utils.go:165-193: the loop of `decrypt`, with a bound on the number of turns; `hang` if it has not returned by then. `h` stands for `t = 4`. -/
def decLoop (uk : List W) : Nat → Int → Bool → St → Res St
  | 0, _, _, _ => .hang
  | fuel + 1, n, h, p =>
    let nn := if n ≤ 4 then n else (n - 1) % 4 + 1
    let k := half uk h
    if nn = 4 then decLoop uk fuel (n - 4) (!h) (pi1 (pi2 k (pi3 k (pi4 k p))))
    else if nn = 3 then decLoop uk fuel (n - 3) (!h) (pi1 (pi2 k (pi3 k p)))
    else if nn = 2 then decLoop uk fuel (n - 2) (!h) (pi1 (pi2 k p))
    else if nn = 1 then decLoop uk fuel (n - 1) (!h) (pi1 p)
    else if nn = 0 then .ok p
    else decLoop uk fuel n (!h) p
/-- utils.go:158-194 `decrypt`: see `dec_neg` for why `hang` means that the loop runs forever. -/
def dec (uk : List W) (N : Int) (p : St) : Res St := decLoop uk (N.toNat + 2) N ((N - 1) / 4 % 2 == 1) p

def encrypt (key : Bytes) (N : Int) : Bytes → Bytes := enc2BE 32 4 (enc (setup key) N)
/-- multi2.go:113-123 -/
def decrypt (key : Bytes) (N : Int) (b : Bytes) : Res Bytes := do
  let p ← dec (setup key) N (ld2BE 32 4 b)
  .ok (st2BE 4 p)

/-- multi2.go:23-85. `N` is the argument `rounds`, an `int32`. -/
def newCipher (N : Int) (key : Bytes) : Res Obj :=
  if key.length = 40 then .ok ⟨8, spill 4 8 (encrypt key N), fun m dst src =>
    if src.len < 8 then .panic
    else if dst.len < 8 then .panic
    else if inexactOverlap { dst with len := 8 } { src with len := 8 } then .panic
    else do
      let r ← decrypt key N (m.read src.ptr 8)
      .ok (m.write dst.ptr ((r ++ List.replicate (4 * (src.len / 4) - 8) 0).take dst.len))⟩ else .err

theorem pi1_pi1 (p : St) : pi1 (pi1 p) = p := by simp [pi1]
theorem pi2_pi2 (k) (p : St) : pi2 k (pi2 k p) = p := by simp [pi2]
theorem pi3_pi3 (k) (p : St) : pi3 k (pi3 k p) = p := by simp [pi3]
theorem pi4_pi4 (k) (p : St) : pi4 k (pi4 k p) = p := by simp [pi4]
theorem step_step (uk : List W) (p : St) (n : Nat) : step uk (step uk p n) n = p := by
  unfold step
  by_cases h0 : n % 4 = 0
  · simp only [h0, if_true, pi1_pi1]
  by_cases h1 : n % 4 = 1
  · simp [h1, pi2_pi2]
  by_cases h2 : n % 4 = 2
  · simp [h2, pi3_pi3]
  · simp only [h0, h1, h2, if_false, pi4_pi4]

theorem step0 (uk : List W) (q : Nat) (p : St) : step uk p (4 * q) = pi1 p := by
  unfold step; rw [show 4 * q % 4 = 0 by omega]; rfl
theorem step1 (uk : List W) (q : Nat) (p : St) : step uk p (4 * q + 1) = pi2 (half uk (q % 2 == 1)) p := by
  unfold step; rw [show (4 * q + 1) % 4 = 1 by omega, show (4 * q + 1) / 4 = q by omega]; rfl
theorem step2 (uk : List W) (q : Nat) (p : St) : step uk p (4 * q + 2) = pi3 (half uk (q % 2 == 1)) p := by
  unfold step; rw [show (4 * q + 2) % 4 = 2 by omega, show (4 * q + 2) / 4 = q by omega]; rfl
theorem step3 (uk : List W) (q : Nat) (p : St) : step uk p (4 * q + 3) = pi4 (half uk (q % 2 == 1)) p := by
  unfold step; rw [show (4 * q + 3) % 4 = 3 by omega, show (4 * q + 3) / 4 = q by omega]; rfl

/-- The steps `n - 1` down to 0. -/
def down (uk : List W) (n : Nat) (p : St) : St := (List.range n).reverse.foldl (step uk) p
theorem down_succ (uk : List W) (n : Nat) (p : St) : down uk (n + 1) p = down uk n (step uk p n) := by
  unfold down
  rw [List.range_succ, List.reverse_append]
  rfl
theorem not_par (q : Nat) : (!(q % 2 == 1)) = (q % 2 == 0) := by
  rcases Nat.mod_two_eq_zero_or_one q with h | h <;> rw [h] <;> rfl
theorem par_succ (q : Nat) : ((q + 1) % 2 == 0) = (q % 2 == 1) := by
  rcases Nat.mod_two_eq_zero_or_one q with h | h
  · rw [h, show (q + 1) % 2 = 1 by omega]; rfl
  · rw [h, show (q + 1) % 2 = 0 by omega]; rfl

theorem decLoop_mult (uk : List W) (q : Nat) : ∀ fuel p, q < fuel → decLoop uk fuel (4 * q : Nat) (q % 2 == 0) p = .ok (down uk (4 * q) p) := by
  induction q with
  | zero =>
    intro fuel p hf
    obtain ⟨f, rfl⟩ : ∃ f, fuel = f + 1 := ⟨fuel - 1, by omega⟩
    rfl
  | succ q ih =>
    intro fuel p hf
    obtain ⟨f, rfl⟩ : ∃ f, fuel = f + 1 := ⟨fuel - 1, by omega⟩
    rw [show 4 * (q + 1) = 4 * q + 3 + 1 by omega, down_succ, down_succ, down_succ, down_succ, step3, step2, step1, step0, ← ih f _ (by omega)]
    unfold decLoop
    have hn : (if ((4 * q + 3 + 1 : Nat) : Int) ≤ 4 then ((4 * q + 3 + 1 : Nat) : Int) else (((4 * q + 3 + 1 : Nat) : Int) - 1) % 4 + 1) = 4 := by
      by_cases h : ((4 * q + 3 + 1 : Nat) : Int) ≤ 4
      · rw [if_pos h]; omega
      · rw [if_neg h]; omega
    simp only [hn, if_true]
    rw [par_succ, not_par, show ((4 * q + 3 + 1 : Nat) : Int) - 4 = (4 * q : Nat) by omega]
    cases f <;> rfl

theorem dec_pos (uk : List W) (n : Nat) (hn : 0 < n) (p : St) : dec uk n p = .ok (down uk n p) := by
  obtain ⟨q, r, rfl, hr⟩ : ∃ q r, n = 4 * q + r + 1 ∧ r < 4 := ⟨(n - 1) / 4, (n - 1) % 4, by omega, by omega⟩
  unfold dec
  rw [show (((4 * q + r + 1 : Nat) : Int) - 1) / 4 % 2 = ((q % 2 : Nat) : Int) by omega, show ((4 * q + r + 1 : Nat) : Int).toNat + 2 = (4 * q + r + 2) + 1 by omega]
  have hp : ((((q % 2 : Nat) : Int)) == 1) = (q % 2 == 1) := by
    rcases Nat.mod_two_eq_zero_or_one q with h | h <;> rw [h] <;> rfl
  rw [hp]
  have hm := fun p => decLoop_mult uk q (4 * q + r + 2) p (by omega)
  unfold decLoop
  have hn : (if ((4 * q + r + 1 : Nat) : Int) ≤ 4 then ((4 * q + r + 1 : Nat) : Int) else (((4 * q + r + 1 : Nat) : Int) - 1) % 4 + 1) = (r + 1 : Nat) := by
    by_cases h : ((4 * q + r + 1 : Nat) : Int) ≤ 4
    · rw [if_pos h]; omega
    · rw [if_neg h]; omega
  simp only [hn]
  obtain rfl | rfl | rfl | rfl : r = 0 ∨ r = 1 ∨ r = 2 ∨ r = 3 := by omega
  · rw [down_succ, step0, not_par]
    exact Eq.trans (by rw [show ((4 * q + 0 + 1 : Nat) : Int) - 1 = (4 * q : Nat) by omega]; rfl) (hm (pi1 p))
  · rw [down_succ, down_succ, step1, step0, not_par]
    exact Eq.trans (by rw [show ((4 * q + 1 + 1 : Nat) : Int) - 2 = (4 * q : Nat) by omega]; rfl) (hm _)
  · rw [down_succ, down_succ, down_succ, step2, step1, step0, not_par]
    exact Eq.trans (by rw [show ((4 * q + 2 + 1 : Nat) : Int) - 3 = (4 * q : Nat) by omega]; rfl) (hm _)
  · rw [down_succ, down_succ, down_succ, down_succ, step3, step2, step1, step0, not_par]
    exact Eq.trans (by rw [show ((4 * q + 3 + 1 : Nat) : Int) - 4 = (4 * q : Nat) by omega]; rfl) (hm _)

/-- For negative `N` no number of turns of the loop suffices. -/
theorem dec_neg (uk : List W) (N : Int) (hN : N < 0) : ∀ fuel h p, decLoop uk fuel N h p = .hang := by
  intro fuel
  induction fuel with
  | zero => intro h p; rfl
  | succ f ih =>
    intro h p
    unfold decLoop
    have hn : (if N ≤ 4 then N else (N - 1) % 4 + 1) = N := if_pos (by omega)
    simp only [hn]
    rw [if_neg (by omega), if_neg (by omega), if_neg (by omega), if_neg (by omega), if_neg (by omega)]
    exact ih _ _

theorem down_enc (uk : List W) (n : Nat) (hn : 0 < n) (p : St) : down uk n (enc uk n p) = p := by
  unfold down enc
  rw [if_pos (by omega), Int.toNat_natCast]
  exact foldl_undo (step uk) (step uk) (step_step uk) _ p

theorem implements (n : Nat) (hn : 0 < n) : ImplementsSpill (newCipher n) (fun l => l = 40) 8 4 := by
  have e : newCipher n = fun key => if key.length = 40 then .ok ⟨8, spill 4 8 (encrypt key n), spill 4 8 (enc2BE 32 4 (down (setup key) n))⟩ else .err := by
    funext key
    unfold newCipher
    have : ∀ b, decrypt key n b = .ok (enc2BE 32 4 (down (setup key) n) b) := by
      intro b
      unfold decrypt
      rw [dec_pos _ n hn]
      rfl
    simp only [this]
    rfl
  rw [e]
  exact implementsSpill_of (ok := fun l => l = 40) (f := fun key => encrypt key n) (g := fun key => enc2BE 32 4 (down (setup key) n)) fun key _ =>
    blockFn_2BE (w := 32) (sz := 4) 8 rfl rfl (f := enc (setup key) n) (g := down (setup key) n) (down_enc _ n hn)

end Verif.Cipher.Multi2
