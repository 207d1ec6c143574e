import Verif.Fpe.Model
import Verif.Fpe.Spec
/-
Helper lemmas for C117 and C118.
-/
namespace Verif.Fpe
open Verif.Pub Verif.Cipher

/-! ### numerals -/

/-- All entries are numerals in base `r`. -/
def Digits (r : Nat) (X : List Nat) : Prop := ∀ d ∈ X, d < r

theorem num_append (r : Nat) (X Y : List Nat) : Spec.num r (X ++ Y) = Spec.num r X * r ^ Y.length + Spec.num r Y := by
  have gen : ∀ (Y : List Nat) (a : Nat), Y.foldl (fun a d => a * r + d) a = a * r ^ Y.length + Spec.num r Y := by
    intro Y
    induction Y with
    | nil => intro a; simp [Spec.num]
    | cons d Y ih =>
      intro a
      have e : Spec.num r (d :: Y) = Y.foldl (fun a d => a * r + d) (0 * r + d) := rfl
      rw [List.foldl_cons, ih, e, ih, List.length_cons, pow_succ]
      ring
  rw [Spec.num, List.foldl_append, gen]
  rfl

theorem num_snoc (r : Nat) (X : List Nat) (d : Nat) : Spec.num r (X ++ [d]) = Spec.num r X * r + d := by
  rw [num_append]; simp [Spec.num]

theorem num_lt (r : Nat) (X : List Nat) (h : Digits r X) : Spec.num r X < r ^ X.length := by
  induction X using List.reverseRecOn with
  | nil => simp [Spec.num]
  | append_singleton X d ih =>
    rw [num_snoc, List.length_append, List.length_singleton, pow_succ]
    have h1 := ih (fun x hx => h x (by simp [hx]))
    have h2 := h d (by simp)
    calc Spec.num r X * r + d < Spec.num r X * r + r := by omega
      _ = (Spec.num r X + 1) * r := by ring
      _ ≤ r ^ X.length * r := Nat.mul_le_mul_right _ h1

@[simp] theorem str_length (r m x : Nat) : (Spec.str r m x).length = m := by
  induction m generalizing x with
  | zero => rfl
  | succ m ih => simp [Spec.str, ih]

theorem str_digits (r m x : Nat) (hr : 0 < r) : Digits r (Spec.str r m x) := by
  induction m generalizing x with
  | zero => intro d hd; simp [Spec.str] at hd
  | succ m ih =>
    intro d hd
    simp only [Spec.str, List.mem_append, List.mem_singleton] at hd
    rcases hd with hd | hd
    · exact ih _ d hd
    · rw [hd]; exact Nat.mod_lt _ hr

theorem num_str (r m x : Nat) (hr : 0 < r) (h : x < r ^ m) : Spec.num r (Spec.str r m x) = x := by
  induction m generalizing x with
  | zero => simp at h; simp [h, Spec.str, Spec.num]
  | succ m ih =>
    rw [Spec.str, num_snoc, ih _ (by rw [Nat.div_lt_iff_lt_mul hr, ← pow_succ]; exact h)]
    rw [Nat.mul_comm]
    exact Nat.div_add_mod x r

theorem str_num (r : Nat) (X : List Nat) (h : Digits r X) : Spec.str r X.length (Spec.num r X) = X := by
  induction X using List.reverseRecOn with
  | nil => rfl
  | append_singleton X d ih =>
    have h2 := h d (by simp)
    rw [num_snoc, List.length_append, List.length_singleton, Spec.str]
    have e1 : (Spec.num r X * r + d) / r = Spec.num r X := by
      rw [Nat.mul_comm, Nat.mul_add_div (by omega), Nat.div_eq_of_lt h2]; simp
    have e2 : (Spec.num r X * r + d) % r = d := by
      rw [Nat.mul_comm, Nat.mul_add_mod, Nat.mod_eq_of_lt h2]
    rw [e1, e2, ih (fun x hx => h x (by simp [hx]))]

/-! ### strings -/

theorem rawVal_chr (small : Bool) (d : Nat) (h : d < 62) (hs : small = true → d < 36) :
    rawVal small (chr d) = some d := by
  have : ∀ s : Bool, ∀ d : Fin 62, (s = true → d.val < 36) → rawVal s (chr d) = some d.val := by decide +kernel
  exact this small ⟨d, h⟩ hs

theorem digitVal_chr (r d : Nat) (h : d < r) (hr : r ≤ 62) : digitVal r (chr d) = some d := by
  unfold digitVal
  rw [rawVal_chr _ d (by omega) (by intro h; simp at h; omega)]
  simp [h]

theorem chr_inj {c d : Nat} (hc : c < 62) (hd : d < 62) (h : chr c = chr d) : c = d := by
  have : ∀ c d : Fin 62, chr c = chr d → c = d := by decide +kernel
  exact Fin.mk.inj (this ⟨c, hc⟩ ⟨d, hd⟩ h)

theorem chr_sign (d : Nat) (h : d < 62) : chr d ≠ 45#8 ∧ chr d ≠ 43#8 := by
  have : ∀ d : Fin 62, chr d ≠ 45#8 ∧ chr d ≠ 43#8 := by decide +kernel
  exact this ⟨d, h⟩

theorem parseDigits_chr (r : Nat) (hr : r ≤ 62) (X : List Nat) (h : Digits r X) (a : Nat) :
    parseDigits r (X.map chr) a = some (X.foldl (fun a d => a * r + d) a) := by
  induction X generalizing a with
  | nil => rfl
  | cons d X ih =>
    rw [List.map_cons, parseDigits, digitVal_chr r d (h d (by simp)) hr]
    exact ih (fun x hx => h x (by simp [hx])) _

theorem parse_chr (r : Nat) (hr : r ≤ 62) (X : List Nat) (h : Digits r X) (hne : X ≠ []) :
    parse r (X.map chr) = some (Spec.num r X : Int) := by
  cases X with
  | nil => exact absurd rfl hne
  | cons d X =>
    have hd := h d (by simp)
    obtain ⟨s1, s2⟩ := chr_sign d (by omega)
    unfold parse
    rw [List.map_cons]
    simp only
    rw [if_neg s1, if_neg s2, ← List.map_cons, parseDigits_chr r hr _ h]
    rfl

theorem textAux_append (r f n : Nat) (acc : Bytes) : textAux r f n acc = textAux r f n [] ++ acc := by
  induction f generalizing n acc with
  | zero => simp [textAux]
  | succ f ih =>
    unfold textAux
    split
    · simp
    · rw [ih, ih (n / r) [chr (n % r)]]; simp

theorem str_zero (r m : Nat) : Spec.str r m 0 = List.replicate m 0 := by
  induction m with
  | zero => rfl
  | succ m ih => rw [Spec.str, Nat.zero_div, ih, Nat.zero_mod, ← List.replicate_succ']

theorem textAux_spec (r : Nat) (hr : 2 ≤ r) (m : Nat) : ∀ f n acc, n ≤ f → n < r ^ m →
    (textAux r f n []).length ≤ m ∧
    List.replicate (m - (textAux r f n []).length) 48#8 ++ textAux r f n acc = (Spec.str r m n).map chr ++ acc := by
  induction m with
  | zero =>
    intro f n acc hf hn
    have : n = 0 := by simpa using hn
    subst this
    cases f <;> simp [textAux, Spec.str]
  | succ m ih =>
    intro f n acc hf hn
    by_cases h0 : n = 0
    · subst h0
      have hz : ∀ acc, textAux r f 0 acc = acc := by intro acc; cases f <;> simp [textAux]
      rw [hz, hz, str_zero, List.map_replicate]
      exact ⟨by simp, rfl⟩
    · obtain ⟨f', rfl⟩ : ∃ k, f = k + 1 := ⟨f - 1, by omega⟩
      have hlt : n / r < n := Nat.div_lt_self (by omega) (by omega)
      have hn' : n / r < r ^ m := by rw [Nat.div_lt_iff_lt_mul (by omega), ← pow_succ]; exact hn
      have hs : ∀ acc, textAux r (f' + 1) n acc = textAux r f' (n / r) (chr (n % r) :: acc) := by
        intro acc; rw [textAux, if_neg h0]
      have hl : (textAux r f' (n / r) [chr (n % r)]).length = (textAux r f' (n / r) []).length + 1 := by
        rw [textAux_append]; simp
      obtain ⟨i1, i2⟩ := ih f' (n / r) (chr (n % r) :: acc) (by omega) hn'
      rw [hs, hs, hl]
      refine ⟨by omega, ?_⟩
      rw [show m + 1 - ((textAux r f' (n / r) []).length + 1) = m - (textAux r f' (n / r) []).length by omega, i2, Spec.str]
      simp

/-- Zero-padded `Text`: the numerals of the number. -/
theorem text_pad (r : Nat) (hr : 2 ≤ r) (m n : Nat) (hm : 1 ≤ m) (hn : n < r ^ m) :
    (text r n).length ≤ m ∧
    List.replicate (m - (text r n).length) 48#8 ++ text r n = (Spec.str r m n).map chr := by
  unfold text
  by_cases h0 : n = 0
  · rw [if_pos h0, h0, str_zero, List.map_replicate]
    refine ⟨by simpa using hm, ?_⟩
    rw [List.length_singleton, ← List.replicate_succ', show m - 1 + 1 = m by omega]
    rfl
  · rw [if_neg h0]
    have := textAux_spec r hr m n n [] (Nat.le_refl _) hn
    rw [List.append_nil] at this
    exact this

theorem padText_eq (r : Nat) (hr : 2 ≤ r) (m n : Nat) (hm : 1 ≤ m) (hn : n < r ^ m) :
    padText r m n = .ok ((Spec.str r m n).map chr) := by
  obtain ⟨h1, h2⟩ := text_pad r hr m n hm hn
  unfold padText
  rw [if_neg (by omega), h2]

/-! ### FF1 -/

theorem cbcMac_eq (E : Bytes → Bytes) (k : Nat) (iv x : Bytes) :
    cbcMac E k iv x = (List.range k).foldl (fun y j => E (xorb y ((x.drop (16 * j)).take 16))) iv := by
  induction k generalizing iv x with
  | zero => rfl
  | succ k ih =>
    rw [cbcMac, ih, List.range_succ_eq_map, List.foldl_cons, List.foldl_map]
    congr 1
    · funext y j
      rw [List.drop_drop, show 16 + 16 * j = 16 * (j + 1) by ring]
    · rw [xorb_comm]; simp

theorem prfM_eq (E : Bytes → Bytes) (x : Bytes) : prfM E x = Spec.prf E x := by
  rw [prfM, cbcMac_eq]; rfl

theorem numPad_eq (t b : Nat) : numPad t b = ((-(t : Int) - b - 1) % 16).toNat := by
  unfold numPad
  simp only
  have h1 : (-(t : Int) - b - 1) = -((t : Int) + b + 1) := by ring
  rw [h1, Int.neg_tmod, Int.tmod_eq_emod_of_nonneg (by omega)]
  split <;> omega

theorem byteLen_bLen (r v B : Nat) (h : B < r ^ v) : B < 256 ^ bLen r v := by
  have h1 : r ^ v ≤ 2 ^ Nat.clog 2 (r ^ v) := Nat.le_pow_clog (by decide) _
  have h2 : (2 : Nat) ^ Nat.clog 2 (r ^ v) ≤ 256 ^ bLen r v := by
    rw [show (256 : Nat) = 2 ^ 8 by norm_num, ← pow_mul]
    apply Nat.pow_le_pow_right (by decide)
    unfold bLen; omega
  omega

theorem zpad_natBytes {n v : Nat} (h : v < 256 ^ n) : List.replicate (n - byteLen v) 0#8 ++ natBytes v = hx n v := by
  have hl := byteLen_le.mpr h
  have hz : ∀ k, setBytes (List.replicate k 0#8) = 0 := by
    intro k
    induction k with
    | zero => rfl
    | succ k ih => rw [List.replicate_succ', setBytes_append, ih]; rfl
  have e := hx_setBytes (List.replicate (n - byteLen v) 0#8 ++ natBytes v)
  rw [setBytes_append, hz, setBytes_natBytes, zero_mul, zero_add] at e
  rw [← e]
  congr 1
  simp [natBytes]
  omega

theorem hx_zeros (a b v : Nat) (h : v < 256 ^ b) : hx (a + b) v = List.replicate a 0#8 ++ hx b v := by
  have hl := byteLen_le.mpr h
  have h' : v < 256 ^ (a + b) := Nat.lt_of_lt_of_le h (Nat.pow_le_pow_right (by decide) (by omega))
  rw [← zpad_natBytes h, ← zpad_natBytes h', ← List.append_assoc, List.replicate_append_replicate]
  congr 2
  omega

theorem ff1Y_eq (E : Bytes → Bytes) (r n : Nat) (tweak : Bytes) (i B : Nat) (hr : r < 65536) (hB : B < r ^ (n - n / 2))
    (hn : n ≤ 2 ^ 40) : ff1Y E r n tweak i B = Spec.ff1y E r n tweak i B := by
  unfold ff1Y Spec.ff1y
  simp only
  have hb := byteLen_bLen r (n - n / 2) B hB
  have hbl := byteLen_le.mpr hb
  have e1 : Spec.ff1b r (n - n / 2) = bLen r (n - n / 2) := rfl
  rw [e1]
  generalize hbe : bLen r (n - n / 2) = b at *
  have e2 : Spec.ff1d b = 4 * ((b + 3) / 4) + 4 := rfl
  rw [e2, ← numPad_eq, prfM_eq]
  have hnl : (natBytes B).length = byteLen B := by simp [natBytes]
  generalize hpe : numPad tweak.length b = pad
  have eQ : (tweak ++ List.replicate pad 0#8 ++ [BitVec.ofNat 8 i] ++
        List.replicate (tweak.length + b + 1 + pad - (tweak.length + pad + 1)) 0#8).take
          (tweak.length + b + 1 + pad - (natBytes B).length) ++
      copyInto ((tweak ++ List.replicate pad 0#8 ++ [BitVec.ofNat 8 i] ++
        List.replicate (tweak.length + b + 1 + pad - (tweak.length + pad + 1)) 0#8).drop
          (tweak.length + b + 1 + pad - (natBytes B).length)) (natBytes B) =
      tweak ++ List.replicate pad 0#8 ++ [BitVec.ofNat 8 i] ++ hx b B := by
    rw [show tweak.length + b + 1 + pad - (tweak.length + pad + 1) = b by omega]
    generalize hX : tweak ++ List.replicate pad 0#8 ++ [BitVec.ofNat 8 i] = X
    have hXl : X.length = tweak.length + pad + 1 := by rw [← hX]; simp; omega
    rw [hnl, show tweak.length + b + 1 + pad - byteLen B = X.length + (b - byteLen B) by omega,
      List.take_append, List.drop_append, List.take_of_length_le (by omega), List.drop_of_length_le (by omega : X.length ≤ _),
      Nat.add_sub_cancel_left, List.take_replicate, List.drop_replicate]
    rw [← zpad_natBytes hb, copyInto_eq_left _ _ (by rw [hnl]; simp; omega), List.append_assoc]
    congr 2
    congr 1
    omega
  rw [eQ]
  have eP : [1#8, 2#8, 1#8, 0#8] ++ hx 2 r = [1#8, 2#8, 1#8] ++ hx 3 r := by
    have := hx_zeros 1 2 r (by omega)
    rw [show 1 + 2 = 3 by rfl] at this
    rw [this]; rfl
  have eJ : ∀ R j, j < (4 * ((b + 3) / 4) + 4 + 15) / 16 - 1 → xorJ R (j + 1) = xorb R (hx 16 (j + 1)) := by
    intro R j hj
    have hb2 : j + 1 < 256 ^ 8 := by
      have : b ≤ (Nat.clog 2 (r ^ (n - n / 2)) + 7) / 8 := by rw [← hbe]; rfl
      have hc : Nat.clog 2 (r ^ (n - n / 2)) ≤ 16 * (n - n / 2) := by
        apply Nat.clog_le_of_le_pow
        rw [pow_mul]
        exact Nat.pow_le_pow_left (by omega) _
      have : b ≤ 2 ^ 42 := by omega
      norm_num
      omega
    have := hx_zeros 8 8 (j + 1) hb2
    rw [show 8 + 8 = 16 by rfl] at this
    rw [xorJ, this]
  have hmap : ∀ R : Bytes, (List.range ((4 * ((b + 3) / 4) + 4 + 15) / 16 - 1)).map (fun j => E (xorJ R (j + 1))) =
      (List.range ((4 * ((b + 3) / 4) + 4 + 15) / 16 - 1)).map (fun j => E (xorb R (hx 16 (j + 1)))) := by
    intro R
    apply List.map_congr_left
    intro j hj
    rw [eJ R j (by simpa using hj)]
  rw [hmap, eP]
  rfl

/-! ### the Feistel network on numbers -/

section feistel
variable (y : Nat → Nat → Nat) (U V : Nat)

/-- The modulus of round `i`. -/
def modOf (i : Nat) : Nat := if i % 2 = 0 then U else V

/-- The state before round `i`. -/
def Inv (i : Nat) (s : Int × Int) : Prop :=
  0 ≤ s.1 ∧ s.1 < (modOf U V i : Int) ∧ 0 ≤ s.2 ∧ s.2 < (modOf U V (i + 1) : Int)

theorem modOf_add_two (i : Nat) : modOf U V (i + 2) = modOf U V i := by
  unfold modOf; rw [Nat.add_mod_right]

theorem modOf_pos (hU : 0 < U) (hV : 0 < V) (i : Nat) : 0 < modOf U V i := by unfold modOf; split <;> assumption

theorem enc_inv (hU : 0 < U) (hV : 0 < V) (i : Nat) (s : Int × Int) (h : Inv U V i s) :
    Inv U V (i + 1) (ff1EncRound y U V s i) := by
  have hp := modOf_pos U V hU hV i
  obtain ⟨h1, h2, h3, h4⟩ := h
  unfold ff1EncRound
  refine ⟨by simp, by simp only; omega, ?_, ?_⟩
  · exact Int.emod_nonneg _ (by have := hp; unfold modOf at this; omega)
  · rw [modOf_add_two]
    exact Int.emod_lt_of_pos _ (by have := hp; unfold modOf at this; omega)

theorem dec_inv (hU : 0 < U) (hV : 0 < V) (i : Nat) (s : Int × Int) (h : Inv U V (i + 1) s) :
    Inv U V i (ff1DecRound y U V s i) := by
  have hp := modOf_pos U V hU hV i
  obtain ⟨h1, h2, h3, h4⟩ := h
  unfold ff1DecRound
  refine ⟨?_, ?_, by simp, by simp only; omega⟩
  · exact Int.emod_nonneg _ (by have := hp; unfold modOf at this; omega)
  · exact Int.emod_lt_of_pos _ (by have := hp; unfold modOf at this; omega)

theorem dec_enc (i : Nat) (s : Int × Int) (h : Inv U V i s) :
    ff1DecRound y U V (ff1EncRound y U V s i) i = s := by
  obtain ⟨a, b⟩ := s
  obtain ⟨h1, h2, h3, h4⟩ := h
  simp only at h1 h2 h3 h4
  have e : (b.natAbs : Int) = b := Int.natAbs_of_nonneg h3
  unfold ff1DecRound ff1EncRound
  simp only [e, Prod.mk.injEq, and_true]
  rw [Int.emod_sub_emod]
  unfold modOf at h2
  rw [show a + (y i b.natAbs : Int) - (y i b.natAbs : Int) = a by ring]
  exact Int.emod_eq_of_lt h1 h2

theorem enc_dec (i : Nat) (s : Int × Int) (h : Inv U V (i + 1) s) :
    ff1EncRound y U V (ff1DecRound y U V s i) i = s := by
  obtain ⟨a, b⟩ := s
  obtain ⟨h1, h2, h3, h4⟩ := h
  simp only at h1 h2 h3 h4
  rw [modOf_add_two] at h4
  have e : (a.natAbs : Int) = a := Int.natAbs_of_nonneg h1
  unfold ff1DecRound ff1EncRound
  simp only [e, Prod.mk.injEq, true_and]
  rw [Int.emod_add_emod]
  unfold modOf at h4
  rw [show b - (y i a.natAbs : Int) + (y i a.natAbs : Int) = b by ring]
  exact Int.emod_eq_of_lt h3 h4

theorem enc_fold_inv (hU : 0 < U) (hV : 0 < V) (k : Nat) (s : Int × Int) (h : Inv U V 0 s) :
    Inv U V k ((List.range k).foldl (ff1EncRound y U V) s) := by
  induction k with
  | zero => exact h
  | succ k ih => rw [List.range_succ, List.foldl_append]; exact enc_inv y U V hU hV k _ ih

theorem dec_fold_inv (hU : 0 < U) (hV : 0 < V) (k : Nat) (s : Int × Int) (h : Inv U V k s) :
    Inv U V 0 ((List.range k).reverse.foldl (ff1DecRound y U V) s) := by
  induction k generalizing s with
  | zero => exact h
  | succ k ih =>
    rw [List.range_succ, List.reverse_append, List.reverse_singleton, List.singleton_append, List.foldl_cons]
    exact ih _ (dec_inv y U V hU hV k s h)

theorem dec_enc_fold (hU : 0 < U) (hV : 0 < V) (k : Nat) (s : Int × Int) (h : Inv U V 0 s) :
    (List.range k).reverse.foldl (ff1DecRound y U V) ((List.range k).foldl (ff1EncRound y U V) s) = s := by
  induction k with
  | zero => rfl
  | succ k ih =>
    rw [List.range_succ, List.reverse_append, List.reverse_singleton, List.singleton_append, List.foldl_cons,
      List.foldl_append, List.foldl_cons, List.foldl_nil,
      dec_enc y U V k _ (enc_fold_inv y U V hU hV k s h), ih]

theorem enc_dec_fold (hU : 0 < U) (hV : 0 < V) (k : Nat) (s : Int × Int) (h : Inv U V k s) :
    (List.range k).foldl (ff1EncRound y U V) ((List.range k).reverse.foldl (ff1DecRound y U V) s) = s := by
  induction k generalizing s with
  | zero => rfl
  | succ k ih =>
    have hi := dec_inv y U V hU hV k s h
    rw [List.range_succ, List.reverse_append, List.reverse_singleton, List.singleton_append, List.foldl_cons,
      List.foldl_append, ih _ hi, List.foldl_cons, List.foldl_nil, enc_dec y U V k s h]

end feistel

/-- The code's rounds on numbers are the standard's rounds on numerals. -/
theorem ff1_fold_spec (E : Bytes → Bytes) (r n : Nat) (tweak : Bytes) (hr : 2 ≤ r) (hr2 : r ≤ 62) (hn : n ≤ 2 ^ 40)
    (A B : List Nat) (hA : Digits r A) (hB : Digits r B) (lA : A.length = n / 2) (lB : B.length = n - n / 2) (k : Nat) :
    ∃ A' B', (List.range k).foldl (Spec.ff1Round E r n tweak) (A, B) = (A', B') ∧
      (List.range k).foldl (ff1EncRound (ff1Y E r n tweak) (r ^ (n / 2)) (r ^ (n - n / 2))) (Spec.num r A, Spec.num r B) =
        ((Spec.num r A' : Int), (Spec.num r B' : Int)) ∧
      Digits r A' ∧ Digits r B' ∧ A'.length = (if k % 2 = 0 then n / 2 else n - n / 2) ∧
      B'.length = (if k % 2 = 0 then n - n / 2 else n / 2) := by
  induction k with
  | zero => exact ⟨A, B, rfl, rfl, hA, hB, by simpa using lA, by simpa using lB⟩
  | succ k ih =>
    obtain ⟨A', B', e1, e2, d1, d2, l1, l2⟩ := ih
    rw [List.range_succ, List.foldl_append, List.foldl_append, e1, e2, List.foldl_cons, List.foldl_nil, List.foldl_cons,
      List.foldl_nil]
    obtain ⟨m, hm⟩ : ∃ m, m = if k % 2 = 0 then n / 2 else n - n / 2 := ⟨_, rfl⟩
    have hB' : Spec.num r B' < r ^ (n - n / 2) := by
      refine Nat.lt_of_lt_of_le (num_lt r B' d2) (Nat.pow_le_pow_right (by omega) ?_)
      rw [l2]; split <;> omega
    have hy := ff1Y_eq E r n tweak k (Spec.num r B') (by omega) hB' hn
    refine ⟨B', Spec.str r m ((Spec.num r A' + Spec.ff1y E r n tweak k (Spec.num r B')) % r ^ m), ?_, ?_, d2,
      str_digits r m _ (by omega), ?_, ?_⟩
    · simp only [Spec.ff1Round, ← hm]
    · rw [num_str r m _ (by omega) (Nat.mod_lt _ (Nat.pow_pos (by omega)))]
      simp only [ff1EncRound, Int.natAbs_natCast, hy]
      rw [show (if k % 2 = 0 then r ^ (n / 2) else r ^ (n - n / 2)) = r ^ m by rw [hm]; split <;> rfl]
      push_cast
      rfl
    · rw [l2]; split <;> split <;> omega
    · rw [str_length, hm]; split <;> split <;> omega

end Verif.Fpe
