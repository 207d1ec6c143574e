import Verif.Stream.Panama
import Verif.Stream.PanamaSpec
import Verif.Stream.HcProps
/-
Theorems about /repo/cipher/panama.
-/
namespace Verif.Strm.Panama
open Verif.Mode Verif.Cipher

theorem at_range {n i : Nat} (f : Nat → W) (h : i < n) : at' ((List.range n).map f) i = f i := by
  simp [at', List.getD_eq_getElem?_getD, h]

theorem piArgs_eq : piArgs = (List.range 17).map fun i => (7 * i % 17, i * (i + 1) / 2 % 32) := by decide

theorem rho_eq (l : List W) (a : Nat → W) (h : ∀ i, i < 17 → at' l i = a i) (i : Nat) (hi : i < 17) :
    at' (theta (pi (gamma l))) i = PanamaSpec.theta (PanamaSpec.pi (PanamaSpec.gamma a)) i := by
  have hg : ∀ j, j < 17 → at' (gamma l) j = PanamaSpec.gamma a j := by
    intro j hj
    rw [gamma, at_range _ hj, PanamaSpec.gamma, h _ hj, h _ (Nat.mod_lt _ (by omega)), h _ (Nat.mod_lt _ (by omega))]
  have hp : ∀ j, j < 17 → at' (pi (gamma l)) j = PanamaSpec.pi (PanamaSpec.gamma a) j := by
    intro j hj
    rw [pi, piArgs_eq, List.map_map, at_range _ hj, Function.comp, PanamaSpec.pi, hg _ (Nat.mod_lt _ (by omega))]
  rw [theta, at_range _ hi, PanamaSpec.theta, hp _ hi, hp _ (Nat.mod_lt _ (by omega)), hp _ (Nat.mod_lt _ (by omega))]

theorem sigma_eq (t L b : List W) (i : Nat) (hi : i < 17) : at' (sigma t L b) i = PanamaSpec.sigma (at' L) (at' b) (at' t) i := by
  have e : sigma t L b = (List.range 17).map (PanamaSpec.sigma (at' L) (at' b) (at' t)) := by
    simp [sigma, PanamaSpec.sigma, List.range_succ]
  rw [e, at_range _ hi]

theorem sigma_congr {l l' b b' a a' : Nat → W} (hl : ∀ i, i < 8 → l i = l' i) (hb : ∀ i, i < 8 → b i = b' i)
    (ha : ∀ i, i < 17 → a i = a' i) (i : Nat) (hi : i < 17) : PanamaSpec.sigma l b a i = PanamaSpec.sigma l' b' a' i := by
  unfold PanamaSpec.sigma
  by_cases h0 : i = 0
  · simp only [h0, if_true]; rw [ha 0 (by omega)]
  · simp only [h0, if_false]
    by_cases h8 : i ≤ 8
    · simp only [h8, if_true]; rw [ha i hi, hl _ (by omega)]
    · simp only [h8, if_false]; rw [ha i hi, hb _ (by omega)]

theorem stg_set_self {s : List (List W)} {i : Nat} (h : i < s.length) (v : List W) : stg (s.set i v) i = v := by
  simp [stg, List.getD_eq_getElem?_getD, h]
theorem stg_set_ne {s : List (List W)} {i j : Nat} (h : i ≠ j) (v : List W) : stg (s.set i v) j = stg s j := by
  simp [stg, List.getD_eq_getElem?_getD, List.getElem?_set_ne h]

/-- The circular buffer holds the shift register. -/
structure Rel (s : St) (t : PanamaSpec.State) : Prop where
  tap : s.tap < 32
  len : s.stage.length = 32
  alen : s.a.length = 17
  b : ∀ j i, j < 32 → i < 8 → at' (stg s.stage ((s.tap + j) % 32)) i = t.b j i
  a : ∀ i, i < 17 → at' s.a i = t.a i

theorem lambda_len (st : List (List W)) (x y : Nat) (q : List W) : (lambda st x y q).length = st.length := by simp [lambda]

theorem lambda_other {st : List (List W)} {x y z : Nat} {q : List W} (h1 : x ≠ z) (h2 : y ≠ z) : stg (lambda st x y q) z = stg st z := by
  simp only [lambda]; rw [stg_set_ne h2, stg_set_ne h1]

theorem lambda_rel {s : St} {t : PanamaSpec.State} (h : Rel s t) (ql : List W) (q : Nat → W) (hq : ∀ i, i < 8 → at' ql i = q i)
    (j i : Nat) (hj : j < 32) (hi : i < 8) :
    at' (stg (lambda s.stage (((s.tap + 31) % 32 + 25) % 32) ((s.tap + 31) % 32) ql) (((s.tap + 31) % 32 + j) % 32)) i
      = PanamaSpec.lambda t.b q j i := by
  have ht := h.tap
  have h31 : at' (stg s.stage ((s.tap + 31) % 32)) i = t.b 31 i := h.b 31 i (by omega) hi
  have hne : ((s.tap + 31) % 32 + 25) % 32 ≠ (s.tap + 31) % 32 := by omega
  unfold PanamaSpec.lambda
  by_cases h0 : j = 0
  · subst h0
    rw [if_pos rfl, show ((s.tap + 31) % 32 + 0) % 32 = (s.tap + 31) % 32 from by omega]
    simp only [lambda]
    rw [stg_set_self (by rw [List.length_set, h.len]; omega), at_range _ hi, stg_set_ne hne, h31, hq i hi, BitVec.xor_comm]
  · rw [if_neg h0]
    by_cases h25 : j = 25
    · subst h25
      rw [if_pos rfl]
      simp only [lambda]
      rw [stg_set_ne (Ne.symm hne), stg_set_self (by rw [h.len]; omega), at_range _ hi, h.b 31 ((i + 2) % 8) (by omega) (by omega),
        show ((s.tap + 31) % 32 + 25) % 32 = (s.tap + 24) % 32 from by omega, h.b 24 i (by omega) hi]
    · rw [if_neg h25, lambda_other (by omega) (by omega),
        show ((s.tap + 31) % 32 + j) % 32 = (s.tap + (j - 1)) % 32 from by omega, h.b (j - 1) i (by omega) hi]

theorem sigma_len (t L b : List W) : (sigma t L b).length = 17 := by simp [sigma]

theorem pull_rel {s : St} {t : PanamaSpec.State} (h : Rel s t) : Rel (pull s) (PanamaSpec.pull t) := by
  have ht := h.tap
  refine ⟨by simp only [pull]; omega, by simp only [pull]; rw [lambda_len, h.len], by simp only [pull]; exact sigma_len .., ?_, ?_⟩
  · intro j i hj hi
    refine lambda_rel h ((s.a.drop 1).take 8) (fun i => t.a (i + 1)) ?_ j i hj hi
    intro i hi
    show _ = t.a (i + 1)
    rw [← h.a (i + 1) (by omega)]
    simp [at', List.getD_eq_getElem?_getD, hi, List.getElem?_take, Nat.add_comm]
  · intro i hi
    show at' (sigma _ _ _) i = PanamaSpec.sigma _ _ _ i
    rw [sigma_eq _ _ _ _ hi]
    refine sigma_congr ?_ ?_ (fun i hi => rho_eq _ _ h.a i hi) i hi
    · intro i hi
      rw [lambda_other (by omega) (by omega), h.b 4 i (by omega) hi]
    · intro i hi
      rw [lambda_other (by omega) (by omega), h.b 16 i (by omega) hi]

theorem push_rel {s : St} {t : PanamaSpec.State} (h : Rel s t) (p : List W) (q : Nat → W) (hq : ∀ i, i < 8 → at' p i = q i) :
    Rel (push p s) (PanamaSpec.push q t) := by
  have ht := h.tap
  refine ⟨by simp only [push]; omega, by simp only [push]; rw [lambda_len, h.len], by simp only [push]; exact sigma_len .., ?_, ?_⟩
  · intro j i hj hi
    exact lambda_rel h _ _ hq j i hj hi
  · intro i hi
    show at' (sigma _ _ _) i = PanamaSpec.sigma _ _ _ i
    rw [sigma_eq _ _ _ _ hi]
    refine sigma_congr hq ?_ (fun i hi => rho_eq _ _ h.a i hi) i hi
    intro i hi
    rw [lambda_other (by omega) (by omega), h.b 16 i (by omega) hi]

theorem reset_rel : Rel reset PanamaSpec.zero := by
  refine ⟨by simp [reset], by simp [reset], by simp [reset], ?_, ?_⟩
  · intro j i hj hi
    have h : (0 + j) % 32 < 32 := Nat.mod_lt _ (by omega)
    simp only [reset, PanamaSpec.zero, stg, at', List.getD_eq_getElem?_getD, List.getElem?_replicate, h, hi, if_true, Option.getD_some]
  · intro i hi
    simp only [reset, PanamaSpec.zero, at', List.getD_eq_getElem?_getD, List.getElem?_replicate, hi, if_true, Option.getD_some]

theorem pulls_rel {s : St} {t : PanamaSpec.State} (h : Rel s t) (n : Nat) : Rel (iterate pull n s) (PanamaSpec.pulls n t) := by
  induction n with
  | zero => exact h
  | succ n ih => rw [iterate_succ]; exact pull_rel ih

theorem stBE_getD : ∀ (l : List W) (q : Nat), q < 4 * l.length →
    (stBE 4 l).getD q 0 = (leBytes 4 (at' l (q / 4)).toNat).reverse.getD (q % 4) 0
  | [], q, h => by simp at h
  | a :: l, q, h => by
    rw [stBE]
    by_cases hq : q < 4
    · rw [List.getD_append _ _ _ _ (by simpa using hq), Nat.div_eq_of_lt hq, Nat.mod_eq_of_lt hq]; rfl
    · rw [List.getD_append_right _ _ _ _ (by simpa using Nat.le_of_not_lt hq), List.length_reverse, leBytes_length,
        stBE_getD l (q - 4) (by rw [List.length_cons] at h; omega)]
      have e1 : q / 4 = (q - 4) / 4 + 1 := by omega
      have e2 : (q - 4) % 4 = q % 4 := by omega
      rw [e1, e2]; rfl

/-- The pull before block `r`, and the block. -/
def stAt (r : St × Bytes) (j : Nat) : Obj := if j = 0 then ⟨r.1, r.2, 32⟩ else ⟨pull r.1, out r.1, j⟩

theorem gen_stAt (r : St × Bytes) (j : Nat) (hj : j < 32) :
    gen (stAt r j) = ((out r.1).getD j 0, if j + 1 = 32 then stAt (pull r.1, out r.1) 0 else stAt r (j + 1)) := by
  have e : stAt (pull r.1, out r.1) 0 = ⟨pull r.1, out r.1, 32⟩ := rfl
  rw [e]
  by_cases h0 : j = 0
  · subst h0; simp [stAt, gen]
  · have h1 : j ≠ 32 := by omega
    simp only [stAt, h0, if_false, gen, h1, Nat.add_eq_zero_iff, false_and]
    by_cases h31 : j + 1 = 32
    · rw [if_pos h31, h31]
    · rw [if_neg h31]

theorem iterate_pair (r : St × Bytes) (n : Nat) : (iterate (fun r : St × Bytes => (pull r.1, out r.1)) n r).1 = iterate pull n r.1 := by
  induction n with
  | zero => rfl
  | succ n ih => rw [iterate_succ, iterate_succ, ← ih]

theorem keystream_eq (key : Bytes) (p : Nat) : genByte gen (expandKey key) p = PanamaSpec.keystream key p := by
  let s0 := iterate pull 32 (push (ldBE 32 4 8 key) reset)
  have e1 : gen (expandKey key) = gen (stAt (s0, []) 0) := by simp [gen, stAt, expandKey, s0]
  rw [genByte_congr gen e1, genByte_blocks gen 32 (by omega) (fun r => out r.1) (fun r => (pull r.1, out r.1)) stAt gen_stAt (s0, []) p]
  show (out (iterate _ (p / 32) (s0, [])).1).getD _ _ = _
  rw [iterate_pair]
  show (out (iterate pull (p / 32) (iterate pull 32 _))).getD _ _ = _
  rw [← iterate_add]
  have hR := pulls_rel (push_rel reset_rel (ldBE 32 4 8 key) (fun i => (ldBE 32 4 8 key).getD i 0) (fun _ _ => rfl)) (32 + p / 32)
  have hl := hR.alen
  rw [out, stBE_getD _ _ (by simp [hl]; omega)]
  unfold PanamaSpec.keystream PanamaSpec.word
  rw [← hR.a (p % 32 / 4 + 9) (by omega), show p % 32 % 4 = p % 4 from by omega]
  have : p % 32 / 4 < 8 := by omega
  simp only [at', List.getD_eq_getElem?_getD, List.getElem?_take, this, if_true, List.getElem?_drop, Nat.add_comm 9]

theorem iters_of_lt {n : Nat} (h : n < 2 ^ 31) : iters n = n := by
  have e : n % 2 ^ 32 = n := Nat.mod_eq_of_lt (by omega)
  rw [iters, e, if_pos h]

theorem xorKS_eq (o : Obj) (m : Mem) (dst src : Slice) (h : src.len < 2 ^ 31) :
    xorKS o m dst src = if src.len = 0 then .ok (m, o) else xorKeyStream (byteStep gen) o m dst src := by
  by_cases h0 : src.len = 0
  · simp only [xorKS, h0, if_true]
  · rw [xorKS, if_neg h0, if_neg h0, iters_of_lt h]
    by_cases h2 : src.len ≤ dst.len
    · by_cases h3 : NoPartialOverlap dst src
      · have h3' : inexactOverlap ⟨dst.ptr, src.len, dst.cap⟩ src = false := by simpa [NoPartialOverlap] using h3
        rw [if_neg (by omega), h3', if_neg (by simp)]
        simp only [xorKeyStream]
        rw [if_neg (Nat.lt_irrefl _), if_neg (show ¬ dst.len < src.len by omega), h3', if_neg (by simp), if_neg (by simp)]
        rfl
      · have h3' : inexactOverlap ⟨dst.ptr, src.len, dst.cap⟩ src = true := by simpa [NoPartialOverlap] using h3
        rw [if_neg (by omega), h3', if_pos rfl, xorKeyStream_panics _ _ _ _ _ (fun h => h3 h.2)]
    · rw [if_pos (by omega), xorKeyStream_panics _ _ _ _ _ (fun h => h2 h.1)]

theorem xorKS_panics (o : Obj) (m : Mem) (dst src : Slice) (hn : ¬ (src.len ≤ dst.len ∧ NoPartialOverlap dst src)) :
    xorKS o m dst src = .panic := by
  have h0 : src.len ≠ 0 := by
    intro h0; apply hn; refine ⟨by omega, ?_⟩
    simp [NoPartialOverlap, inexactOverlap, h0]
  unfold xorKS
  rw [if_neg h0]
  by_cases h2 : src.len ≤ dst.len
  · have h3 : ¬ NoPartialOverlap dst src := fun h3 => hn ⟨h2, h3⟩
    rw [if_neg (by omega), if_pos (by simpa [NoPartialOverlap] using h3)]
  · rw [if_pos (by omega)]

/-- **C133**: `NewCipher` takes exactly the keys of 32 bytes, and the object it returns XORs the key stream of Panama, as long as every
call gets less than 2^31 bytes. -/
theorem C133_panama_partial (key : Bytes) :
    (key.length ≠ 32 → newCipher key = .err) ∧
    (key.length = 32 → ∃ o, newCipher key = .ok o ∧
      IsStream (fun _ src => src.len < 2 ^ 31) xorKS o (PanamaSpec.keystream key)) := by
  refine ⟨fun h => by rw [newCipher, if_neg h], fun h => ⟨_, by rw [newCipher, if_pos h], ?_⟩⟩
  have hk : PanamaSpec.keystream key = genByte gen (expandKey key) := funext fun p => (keystream_eq key p).symm
  rw [hk]
  refine isStream_of (fun st p => st = iterate (fun s => (gen s).2) p (expandKey key)) rfl ?_ (fun st m dst src => xorKS_panics st m dst src)
  intro st p m dst src hR hA h2 h3
  refine ⟨iterate (fun s => (gen s).2) (p + src.len) (expandKey key), ?_, rfl⟩
  rw [xorKS_eq _ _ _ _ hA]
  have := byteStep_call gen (expandKey key) p m dst src h2 h3
  rw [← this, hR]
  exact congrFun (congrFun (congrFun (congrFun (skipEmpty_eq (byteStep gen)) _) _) _) _

/-- **C132 fails** for a long call: a call with 2^31 to 2^32 bytes returns normally and has changed nothing, so `dst` does not hold the
ciphertext (with `dst = src` the plaintext is left in place). -/
theorem C132_panama_long_violated (key : Bytes) (h : key.length = 32) : ∃ o, newCipher key = .ok o ∧
    ∀ m dst src, 2 ^ 31 ≤ src.len → src.len ≤ 2 ^ 32 → src.len ≤ dst.len → NoPartialOverlap dst src →
      xorKS o m dst src = .ok (m, o) := by
  refine ⟨_, by rw [newCipher, if_pos h], ?_⟩
  intro m dst src h1 h2 h3 h4
  have hi : iters src.len = 0 := by
    unfold iters
    by_cases he : src.len = 2 ^ 32
    · rw [he, Nat.mod_self, if_pos (by decide)]
    · rw [Nat.mod_eq_of_lt (by omega), if_neg (by omega)]
  have h4' : inexactOverlap ⟨dst.ptr, src.len, dst.cap⟩ src = false := by simpa [NoPartialOverlap] using h4
  rw [xorKS, if_neg (by omega), if_neg (by omega), h4', if_neg (by simp), hi]
  simp only [xorKeyStream]
  rw [if_neg (by omega), if_neg (by simp [inexactOverlap])]
  rfl

example : newCipher (List.replicate 32 7) = .ok (expandKey (List.replicate 32 7)) ∧ newCipher [1] = .err := ⟨rfl, rfl⟩
example : NoPartialOverlap ⟨0, 2 ^ 31, 2 ^ 31⟩ ⟨0, 2 ^ 31, 2 ^ 31⟩ := by simp [NoPartialOverlap, inexactOverlap]

end Verif.Strm.Panama
