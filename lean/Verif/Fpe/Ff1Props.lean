import Verif.Fpe.Lemmas
/-
C117: FF1 format-preserving encryption.
-/
namespace Verif.Fpe
open Verif.Pub Verif.Cipher

/-- What `NewCipher` guarantees of its result. -/
structure Ff1.Good (c : Ff1) : Prop where
  two : 2 ≤ c.radix
  max : c.radix ≤ 62
  min : 2 ≤ c.minLen

theorem clog_100 {r : Nat} (h1 : 2 ≤ r) (h2 : r ≤ 62) : 2 ≤ minLenOf r ∧ minLenOf r ≤ 7 := by
  unfold minLenOf
  constructor
  · rw [show 2 = 1 + 1 by rfl, Nat.add_one_le_iff, Nat.lt_clog_iff_pow_lt (by omega), pow_one]
    omega
  · apply Nat.clog_le_of_le_pow
    calc 100 ≤ 2 ^ 7 := by norm_num
      _ ≤ r ^ 7 := Nat.pow_le_pow_left h1 7

/-- `NewCipher` accepts exactly AES keys, radices from 2 to 62 and tweaks of at most `maxTLen` bytes; the shortest string
it then takes is the shortest with at least 100 possible values. -/
theorem C117_new (aes : Bytes → Bytes → Bytes) (radix maxTLen : Int) (key tweak : Bytes) :
    (∃ c, ff1New aes radix maxTLen key tweak = .ok c) ↔
      (key.length = 16 ∨ key.length = 24 ∨ key.length = 32) ∧ 2 ≤ radix ∧ radix ≤ 62 ∧ (tweak.length : Int) ≤ maxTLen := by
  unfold ff1New
  constructor
  · rintro ⟨c, h⟩
    split at h
    · cases h
    · split at h
      · cases h
      · split at h
        · cases h
        · rename_i h1 h2 h3
          exact ⟨not_not.mp h1, by omega, by omega, by omega⟩
  · rintro ⟨h1, h2, h3, h4⟩
    have hc := clog_100 (r := radix.toNat) (by omega) (by omega)
    rw [if_neg (not_not.mpr h1), if_neg (by omega), if_neg (by omega)]
    simp only
    rw [if_neg (by omega)]
    exact ⟨_, rfl⟩

theorem ff1New_good {aes : Bytes → Bytes → Bytes} {radix maxTLen : Int} {key tweak : Bytes} {c : Ff1}
    (h : ff1New aes radix maxTLen key tweak = .ok c) :
    c.Good ∧ c.E = aes key ∧ (c.radix : Int) = radix ∧ c.maxTLen = maxTLen ∧ c.tweak = tweak ∧
      100 ≤ c.radix ^ c.minLen ∧ (∀ m, 100 ≤ c.radix ^ m → c.minLen ≤ m) := by
  unfold ff1New at h
  split at h
  · cases h
  · split at h
    · cases h
    · split at h
      · cases h
      · simp only at h
        split at h
        · cases h
        · rename_i h1 h2 h3 h4
          have := Res.ok.inj h
          subst this
          refine ⟨⟨by show 2 ≤ radix.toNat; omega, by show radix.toNat ≤ 62; omega, by show 2 ≤ minLenOf radix.toNat; omega⟩, rfl,
            by show (radix.toNat : Int) = radix; omega, rfl, rfl, ?_, ?_⟩
          · exact Nat.le_pow_clog (by show 1 < radix.toNat; omega) _
          · intro m hm
            exact Nat.clog_le_of_le_pow hm

theorem inv_mk (U V k : Nat) (hk : k % 2 = 0) (a b : Nat) (ha : a < U) (hb : b < V) : Inv U V k ((a : Int), (b : Int)) := by
  have h2 : (k + 1) % 2 ≠ 0 := by omega
  refine ⟨by simp, ?_, by simp, ?_⟩
  · unfold modOf; rw [if_pos hk]; simp only; exact_mod_cast ha
  · unfold modOf; rw [if_neg h2]; simp only; exact_mod_cast hb

/-- Splitting a numeral string. -/
theorem ff1Run_digits (dec : Bool) (c : Ff1) (hc : c.Good) (X : List Nat) (tweak : Bytes) (hX : Digits c.radix X)
    (h1 : c.minLen ≤ X.length) (h2 : X.length < 2 ^ 32) (h3 : (tweak.length : Int) ≤ c.maxTLen) :
    ∃ a b : Nat, a = Spec.num c.radix (X.take (X.length / 2)) ∧ b = Spec.num c.radix (X.drop (X.length / 2)) ∧
      a < c.radix ^ (X.length / 2) ∧ b < c.radix ^ (X.length - X.length / 2) ∧
      ff1Run dec c (X.map chr) tweak =
        (let y := ff1Y c.E c.radix X.length tweak
         let U := c.radix ^ (X.length / 2)
         let V := c.radix ^ (X.length - X.length / 2)
         let s := if dec then (List.range 10).reverse.foldl (ff1DecRound y U V) ((a : Int), (b : Int))
          else (List.range 10).foldl (ff1EncRound y U V) ((a : Int), (b : Int))
         match padText c.radix (X.length / 2) s.1.natAbs with
         | .ok A =>
           match padText c.radix (X.length - X.length / 2) s.2.natAbs with
           | .ok B => .ok (A ++ B)
           | e => e
         | e => e) := by
  have hr := hc.two
  have hr2 := hc.max
  have hm := hc.min
  have hl1 : (X.take (X.length / 2)).length = X.length / 2 := by simp; omega
  have hl2 : (X.drop (X.length / 2)).length = X.length - X.length / 2 := by simp
  have hd1 : Digits c.radix (X.take (X.length / 2)) := fun d hd => hX d (List.mem_of_mem_take hd)
  have hd2 : Digits c.radix (X.drop (X.length / 2)) := fun d hd => hX d (List.mem_of_mem_drop hd)
  have hne : X ≠ [] := by intro h; rw [h] at h1; simp at h1; omega
  have hne1 : X.take (X.length / 2) ≠ [] := by intro h; rw [h] at hl1; simp at hl1; omega
  have hne2 : X.drop (X.length / 2) ≠ [] := by intro h; rw [h] at hl2; simp at hl2; omega
  refine ⟨_, _, rfl, rfl, ?_, ?_, ?_⟩
  · have := num_lt _ _ hd1; rwa [hl1] at this
  · have := num_lt _ _ hd2; rwa [hl2] at this
  · unfold ff1Run
    simp only [List.length_map, ← List.map_take, ← List.map_drop]
    rw [if_neg (by omega), if_neg (by omega), parse_chr _ hr2 X hX hne, parse_chr _ hr2 _ hd1 hne1,
      parse_chr _ hr2 _ hd2 hne2]
    rfl

/-- Encryption is FF1 of NIST SP 800-38G, for every radix, tweak and string of lower-case numerals. -/
theorem C117_encrypt (c : Ff1) (hc : c.Good) (X : List Nat) (tweak : Bytes) (hX : Digits c.radix X)
    (h1 : c.minLen ≤ X.length) (h2 : X.length < 2 ^ 32) (h3 : (tweak.length : Int) ≤ c.maxTLen) :
    ff1Run false c (X.map chr) tweak = .ok ((Spec.ff1Enc c.E c.radix tweak X).map chr) ∧
      (Spec.ff1Enc c.E c.radix tweak X).length = X.length ∧ Digits c.radix (Spec.ff1Enc c.E c.radix tweak X) := by
  have hr := hc.two
  have hr2 := hc.max
  have hm := hc.min
  obtain ⟨a, b, ha, hb, hal, hbl, e⟩ := ff1Run_digits false c hc X tweak hX h1 h2 h3
  have hl1 : (X.take (X.length / 2)).length = X.length / 2 := by simp; omega
  have hl2 : (X.drop (X.length / 2)).length = X.length - X.length / 2 := by simp
  have hd1 : Digits c.radix (X.take (X.length / 2)) := fun d hd => hX d (List.mem_of_mem_take hd)
  have hd2 : Digits c.radix (X.drop (X.length / 2)) := fun d hd => hX d (List.mem_of_mem_drop hd)
  obtain ⟨A', B', f1, f2, d1, d2, l1, l2⟩ := ff1_fold_spec c.E c.radix X.length tweak hr hr2 (by omega) _ _ hd1 hd2 hl1 hl2 10
  rw [← ha, ← hb] at f2
  have hs : Spec.ff1Enc c.E c.radix tweak X = A' ++ B' := by
    unfold Spec.ff1Enc; simp only; rw [f1]
  simp at l1 l2
  refine ⟨?_, ?_, ?_⟩
  · rw [e, hs]
    simp only [Bool.false_eq_true, if_false]
    rw [f2]
    simp only [Int.natAbs_natCast]
    have n1 := num_lt _ _ d1
    have n2 := num_lt _ _ d2
    rw [l1] at n1
    rw [l2] at n2
    rw [padText_eq _ hr _ _ (by omega) n1, padText_eq _ hr _ _ (by omega) n2]
    simp only [List.map_append]
    have s1 := str_num _ _ d1
    have s2 := str_num _ _ d2
    rw [l1] at s1
    rw [l2] at s2
    rw [s1, s2]
  · rw [hs, List.length_append, l1, l2]; omega
  · rw [hs]
    intro d hd
    rcases List.mem_append.mp hd with h | h
    · exact d1 d h
    · exact d2 d h

theorem num_split (r : Nat) (X : List Nat) (k : Nat) (hX : Digits r X) :
    Spec.str r (X.take k).length (Spec.num r (X.take k)) ++ Spec.str r (X.drop k).length (Spec.num r (X.drop k)) = X := by
  rw [str_num r _ (fun d hd => hX d (List.mem_of_mem_take hd)), str_num r _ (fun d hd => hX d (List.mem_of_mem_drop hd)),
    List.take_append_drop]

/-- The result of either direction: two padded halves. -/
theorem ff1_out (dec : Bool) (c : Ff1) (hc : c.Good) (X : List Nat) (tweak : Bytes) (hX : Digits c.radix X)
    (h1 : c.minLen ≤ X.length) (h2 : X.length < 2 ^ 32) (h3 : (tweak.length : Int) ≤ c.maxTLen) :
    ∃ Z : List Nat, Digits c.radix Z ∧ Z.length = X.length ∧ ff1Run dec c (X.map chr) tweak = .ok (Z.map chr) ∧
      let y := ff1Y c.E c.radix X.length tweak
      let U := c.radix ^ (X.length / 2)
      let V := c.radix ^ (X.length - X.length / 2)
      (if dec then (List.range 10).reverse.foldl (ff1DecRound y U V)
          ((Spec.num c.radix (X.take (X.length / 2)) : Int), (Spec.num c.radix (X.drop (X.length / 2)) : Int))
        else (List.range 10).foldl (ff1EncRound y U V)
          ((Spec.num c.radix (X.take (X.length / 2)) : Int), (Spec.num c.radix (X.drop (X.length / 2)) : Int))) =
        ((Spec.num c.radix (Z.take (X.length / 2)) : Int), (Spec.num c.radix (Z.drop (X.length / 2)) : Int)) := by
  have hr := hc.two
  have hm := hc.min
  obtain ⟨a, b, ha, hb, hal, hbl, e⟩ := ff1Run_digits dec c hc X tweak hX h1 h2 h3
  rw [← ha, ← hb]
  simp only at e ⊢
  have hU : 0 < c.radix ^ (X.length / 2) := Nat.pow_pos (by omega)
  have hV : 0 < c.radix ^ (X.length - X.length / 2) := Nat.pow_pos (by omega)
  have hinv : Inv (c.radix ^ (X.length / 2)) (c.radix ^ (X.length - X.length / 2)) 0
      (if dec then (List.range 10).reverse.foldl (ff1DecRound (ff1Y c.E c.radix X.length tweak) (c.radix ^ (X.length / 2))
          (c.radix ^ (X.length - X.length / 2))) ((a : Int), (b : Int))
        else (List.range 10).foldl (ff1EncRound (ff1Y c.E c.radix X.length tweak) (c.radix ^ (X.length / 2))
          (c.radix ^ (X.length - X.length / 2))) ((a : Int), (b : Int))) := by
    cases dec
    · have := enc_fold_inv (ff1Y c.E c.radix X.length tweak) _ _ hU hV 10 ((a : Int), (b : Int))
        (inv_mk _ _ _ (by decide) a b hal hbl)
      simpa [Inv, modOf] using this
    · have := dec_fold_inv (ff1Y c.E c.radix X.length tweak) _ _ hU hV 10 ((a : Int), (b : Int))
        (inv_mk _ _ _ (by decide) a b hal hbl)
      simpa [Inv, modOf] using this
  generalize hs : (if dec then (List.range 10).reverse.foldl (ff1DecRound (ff1Y c.E c.radix X.length tweak)
      (c.radix ^ (X.length / 2)) (c.radix ^ (X.length - X.length / 2))) ((a : Int), (b : Int))
        else (List.range 10).foldl (ff1EncRound (ff1Y c.E c.radix X.length tweak) (c.radix ^ (X.length / 2))
          (c.radix ^ (X.length - X.length / 2))) ((a : Int), (b : Int))) = s at e hinv ⊢
  obtain ⟨i1, i2, i3, i4⟩ := hinv
  simp only [modOf, Nat.zero_mod, Nat.zero_add, if_true, Nat.one_mod, one_ne_zero, if_false] at i2 i4
  have t1 : s.1.natAbs < c.radix ^ (X.length / 2) := by omega
  have t2 : s.2.natAbs < c.radix ^ (X.length - X.length / 2) := by omega
  refine ⟨Spec.str c.radix (X.length / 2) s.1.natAbs ++ Spec.str c.radix (X.length - X.length / 2) s.2.natAbs, ?_, ?_, ?_, ?_⟩
  · intro d hd
    rcases List.mem_append.mp hd with h | h
    · exact str_digits _ _ _ (by omega) d h
    · exact str_digits _ _ _ (by omega) d h
  · simp; omega
  · rw [e, padText_eq _ hr _ _ (by omega) t1, padText_eq _ hr _ _ (by omega) t2, List.map_append]
  · rw [List.take_left' (by simp), List.drop_left' (by simp), num_str _ _ _ (by omega) t1, num_str _ _ _ (by omega) t2]
    refine Prod.ext ?_ ?_
    · simp only; omega
    · simp only; omega

/-- Decrypt after Encrypt and Encrypt after Decrypt give back the string, for every radix from 2 to 62, every length in
range, every tweak and every cipher: both are permutations of the numeral strings of a given length. -/
theorem C117_roundtrip_partial (dec : Bool) (c : Ff1) (hc : c.Good) (X : List Nat) (tweak : Bytes) (hX : Digits c.radix X)
    (h1 : c.minLen ≤ X.length) (h2 : X.length < 2 ^ 32) (h3 : (tweak.length : Int) ≤ c.maxTLen) :
    ∃ Z : List Nat, Digits c.radix Z ∧ Z.length = X.length ∧ ff1Run dec c (X.map chr) tweak = .ok (Z.map chr) ∧
      ff1Run (!dec) c (Z.map chr) tweak = .ok (X.map chr) := by
  have hr := hc.two
  obtain ⟨Z, dZ, lZ, eZ, fZ⟩ := ff1_out dec c hc X tweak hX h1 h2 h3
  obtain ⟨W, dW, lW, eW, fW⟩ := ff1_out (!dec) c hc Z tweak dZ (by omega) (by omega) h3
  refine ⟨Z, dZ, lZ, eZ, ?_⟩
  rw [eW]
  congr 2
  simp only [lZ] at fW fZ
  rw [← fZ] at fW
  have hU : 0 < c.radix ^ (X.length / 2) := Nat.pow_pos (by omega)
  have hV : 0 < c.radix ^ (X.length - X.length / 2) := Nat.pow_pos (by omega)
  have hl1 : (X.take (X.length / 2)).length = X.length / 2 := by simp; omega
  have hl2 : (X.drop (X.length / 2)).length = X.length - X.length / 2 := by simp
  have hd1 : Digits c.radix (X.take (X.length / 2)) := fun d hd => hX d (List.mem_of_mem_take hd)
  have hd2 : Digits c.radix (X.drop (X.length / 2)) := fun d hd => hX d (List.mem_of_mem_drop hd)
  have n1 := num_lt _ _ hd1
  have n2 := num_lt _ _ hd2
  rw [hl1] at n1
  rw [hl2] at n2
  have hback : ((Spec.num c.radix (X.take (X.length / 2)) : Int), (Spec.num c.radix (X.drop (X.length / 2)) : Int)) =
      ((Spec.num c.radix (W.take (X.length / 2)) : Int), (Spec.num c.radix (W.drop (X.length / 2)) : Int)) := by
    rw [← fW]
    cases dec
    · simp only [Bool.not_false, if_true, Bool.false_eq_true, if_false]
      exact (dec_enc_fold _ _ _ hU hV 10 _ (inv_mk _ _ _ (by decide) _ _ n1 n2)).symm
    · simp only [Bool.not_true, if_true, Bool.false_eq_true, if_false]
      exact (enc_dec_fold _ _ _ hU hV 10 _ (inv_mk _ _ _ (by decide) _ _ n1 n2)).symm
  rw [Prod.mk.injEq, Int.natCast_inj, Int.natCast_inj] at hback
  have hW := num_split c.radix W (X.length / 2) dW
  have hX' := num_split c.radix X (X.length / 2) hX
  rw [← hback.1, ← hback.2] at hW
  have lw1 : (W.take (X.length / 2)).length = X.length / 2 := by simp; omega
  have lw2 : (W.drop (X.length / 2)).length = X.length - X.length / 2 := by simp; omega
  rw [lw1, lw2] at hW
  rw [hl1, hl2] at hX'
  rw [← hW, hX']

theorem parse_neg (r : Nat) (hr2 : r ≤ 62) (D : List Nat) (hD : Digits r D) (hne : D ≠ []) :
    parse r (45#8 :: D.map chr) = some (-(Spec.num r D : Int)) := by
  unfold parse
  simp only
  rw [if_pos trivial, if_neg (by simpa using hne), parseDigits_chr r hr2 _ hD]
  rfl

/-- A leading minus sign passes the check "is the message in the radix": the string encrypts like the numerals of
`radix^u` minus its first half, so decryption returns a string of digits and not the message. -/
theorem C117_sign_violated (c : Ff1) (hc : c.Good) (D B : List Nat) (tweak : Bytes) (hD : Digits c.radix D)
    (hB : Digits c.radix B) (hne : D ≠ []) (hpos : 0 < Spec.num c.radix D)
    (hlen : B.length = D.length + 1 ∨ B.length = D.length + 2)
    (h1 : c.minLen ≤ D.length + 1 + B.length) (h2 : D.length + 1 + B.length < 2 ^ 32)
    (h3 : (tweak.length : Int) ≤ c.maxTLen) :
    ∃ Y X', ff1Run false c (45#8 :: D.map chr ++ B.map chr) tweak = .ok Y ∧ ff1Run true c Y tweak = .ok X' ∧
      X' ≠ 45#8 :: D.map chr ++ B.map chr := by
  have hr := hc.two
  have hr2 := hc.max
  obtain ⟨u, hu⟩ : ∃ u, u = D.length + 1 := ⟨_, rfl⟩
  have hDl := num_lt _ _ hD
  have hpw : c.radix ^ D.length < c.radix ^ u := Nat.pow_lt_pow_right (by omega) (by omega)
  obtain ⟨a, ha⟩ : ∃ a, a = c.radix ^ u - Spec.num c.radix D := ⟨_, rfl⟩
  have hal : a < c.radix ^ u := by omega
  -- the string of digits with the same image
  obtain ⟨X, hX⟩ : ∃ X, X = Spec.str c.radix u a ++ B := ⟨_, rfl⟩
  have hXd : Digits c.radix X := by
    rw [hX]; intro d hd
    rcases List.mem_append.mp hd with h | h
    · exact str_digits _ _ _ (by omega) d h
    · exact hB d h
  have hXl : X.length = D.length + 1 + B.length := by rw [hX]; simp [hu]
  obtain ⟨Z, dZ, lZ, eZ, fZ⟩ := C117_roundtrip_partial false c hc X tweak hXd (by omega) (by omega) h3
  have hhalf : X.length / 2 = u := by omega
  have hBne : B ≠ [] := by intro h; rw [h] at hlen; simp at hlen
  have hBp := parse_chr c.radix hr2 B hB hBne
  have hne1 : Spec.str c.radix u a ≠ [] := by
    intro h; have := congrArg List.length h; rw [str_length] at this; simp at this; omega
  have same : ff1Run false c (45#8 :: D.map chr ++ B.map chr) tweak = ff1Run false c (X.map chr) tweak := by
    have hsl : (45#8 :: D.map chr ++ B.map chr).length = X.length := by rw [hXl]; simp; omega
    have htake : (45#8 :: D.map chr ++ B.map chr).take (X.length / 2) = 45#8 :: D.map chr :=
      List.take_left' (by simp [hhalf, hu])
    have hdrop : (45#8 :: D.map chr ++ B.map chr).drop (X.length / 2) = B.map chr :=
      List.drop_left' (by simp [hhalf, hu])
    have htake' : (X.map chr).take (X.length / 2) = (Spec.str c.radix u a).map chr := by
      rw [hhalf, hX, List.map_append]; exact List.take_left' (by simp)
    have hdrop' : (X.map chr).drop (X.length / 2) = B.map chr := by
      rw [hhalf, hX, List.map_append]; exact List.drop_left' (by simp)
    have hparse : parse c.radix (45#8 :: D.map chr ++ B.map chr) = some (-(Spec.num c.radix (D ++ B) : Int)) := by
      rw [List.cons_append, ← List.map_append]
      refine parse_neg _ hr2 _ ?_ (by simp [hne])
      intro d hd
      rcases List.mem_append.mp hd with h | h
      · exact hD d h
      · exact hB d h
    have hparse' : parse c.radix (X.map chr) = some (Spec.num c.radix X : Int) :=
      parse_chr _ hr2 _ hXd (by intro h; rw [h] at hXl; simp at hXl; omega)
    have hn1 := parse_neg _ hr2 D hD hne
    have hn2 := parse_chr _ hr2 (Spec.str c.radix u a) (str_digits _ _ _ (by omega)) hne1
    rw [num_str _ _ _ (by omega) hal] at hn2
    unfold ff1Run
    simp only [hsl, List.length_map, htake, hdrop, htake', hdrop', hparse, hparse', hn1, hn2, hBp]
    simp only [Bool.false_eq_true, if_false]
    have hfold : (List.range 10).foldl (ff1EncRound (ff1Y c.E c.radix X.length tweak) (c.radix ^ (X.length / 2))
          (c.radix ^ (X.length - X.length / 2))) (-(Spec.num c.radix D : Int), (Spec.num c.radix B : Int)) =
        (List.range 10).foldl (ff1EncRound (ff1Y c.E c.radix X.length tweak) (c.radix ^ (X.length / 2))
          (c.radix ^ (X.length - X.length / 2))) ((a : Int), (Spec.num c.radix B : Int)) := by
      rw [show List.range 10 = 0 :: (List.range 9).map (· + 1) by decide, List.foldl_cons, List.foldl_cons]
      congr 1
      simp only [ff1EncRound, Nat.zero_mod, if_true, Prod.mk.injEq, true_and]
      rw [hhalf, show (-(Spec.num c.radix D : Int)) = (a : Int) - (c.radix ^ u : Nat) by omega]
      rw [show (a : Int) - (c.radix ^ u : Nat) + (ff1Y c.E c.radix X.length tweak 0 (Spec.num c.radix B : Int).natAbs : Int)
        = (a : Int) + (ff1Y c.E c.radix X.length tweak 0 (Spec.num c.radix B : Int).natAbs : Int) - (c.radix ^ u : Nat) by ring]
      exact Int.sub_emod_right _ _
    rw [hfold]
  refine ⟨Z.map chr, X.map chr, by rw [same]; exact eZ, fZ, ?_⟩
  intro h
  cases hS : Spec.str c.radix u a with
  | nil => exact hne1 hS
  | cons d S =>
    rw [hX, hS] at h
    simp only [List.cons_append, List.map_cons, List.cons.injEq] at h
    refine (chr_sign d ?_).1 h.1
    have := str_digits c.radix u a (by omega) d (by rw [hS]; simp)
    omega

/-- Upper-case letters. -/
def chrUp (d : Nat) : Byte := if d < 10 then BitVec.ofNat 8 (48 + d) else BitVec.ofNat 8 (55 + d)

theorem rawVal_chrUp (d : Nat) (h : d < 36) : rawVal true (chrUp d) = some d := by
  have : ∀ d : Fin 36, rawVal true (chrUp d) = some d.val := by decide +kernel
  exact this ⟨d, h⟩

theorem parseDigits_up (r : Nat) (hr : r ≤ 36) (X : List Nat) (h : Digits r X) (a : Nat) :
    parseDigits r (X.map chrUp) a = parseDigits r (X.map chr) a := by
  induction X generalizing a with
  | nil => rfl
  | cons d X ih =>
    have hd := h d (by simp)
    rw [List.map_cons, List.map_cons, parseDigits, parseDigits, digitVal_chr r d hd (by omega)]
    have : digitVal r (chrUp d) = some d := by
      unfold digitVal
      rw [decide_eq_true hr, rawVal_chrUp d (by omega)]
      simp [hd]
    rw [this]
    exact ih (fun x hx => h x (by simp [hx])) _

theorem chrUp_sign (d : Nat) (h : d < 36) : chrUp d ≠ 45#8 ∧ chrUp d ≠ 43#8 := by
  have : ∀ d : Fin 36, chrUp d ≠ 45#8 ∧ chrUp d ≠ 43#8 := by decide +kernel
  exact this ⟨d, h⟩

theorem parse_up (r : Nat) (hr : r ≤ 36) (X : List Nat) (h : Digits r X) :
    parse r (X.map chrUp) = parse r (X.map chr) := by
  cases X with
  | nil => rfl
  | cons d X =>
    have hd := h d (by simp)
    obtain ⟨s1, s2⟩ := chr_sign d (by omega)
    obtain ⟨s3, s4⟩ := chrUp_sign d (by omega)
    unfold parse
    simp only [List.map_cons]
    rw [if_neg s1, if_neg s2, if_neg s3, if_neg s4, ← List.map_cons, ← List.map_cons, parseDigits_up r hr _ h]

theorem chrUp_ne (d : Nat) (h : d < 36) (h2 : 10 ≤ d) : chrUp d ≠ chr d := by
  have : ∀ d : Fin 36, 10 ≤ d.val → chrUp d ≠ chr d := by decide +kernel
  exact this ⟨d, h⟩ h2

/-- With a radix from 11 to 36 upper-case messages are accepted but come back in lower case. -/
theorem C117_case_violated (c : Ff1) (hc : c.Good) (hr : c.radix ≤ 36) (X : List Nat) (tweak : Bytes)
    (hX : Digits c.radix X) (h10 : ∃ d ∈ X, 10 ≤ d)
    (h1 : c.minLen ≤ X.length) (h2 : X.length < 2 ^ 32) (h3 : (tweak.length : Int) ≤ c.maxTLen) :
    ∃ Y X', ff1Run false c (X.map chrUp) tweak = .ok Y ∧ ff1Run true c Y tweak = .ok X' ∧ X' ≠ X.map chrUp := by
  obtain ⟨Z, dZ, lZ, eZ, fZ⟩ := C117_roundtrip_partial false c hc X tweak hX h1 h2 h3
  refine ⟨Z.map chr, X.map chr, ?_, fZ, ?_⟩
  · rw [← eZ]
    unfold ff1Run
    simp only [List.length_map, ← List.map_take, ← List.map_drop]
    rw [parse_up _ hr _ hX, parse_up _ hr _ (fun d hd => hX d (List.mem_of_mem_take hd)),
      parse_up _ hr _ (fun d hd => hX d (List.mem_of_mem_drop hd))]
  · intro h
    obtain ⟨d, hd, hd2⟩ := h10
    have := List.map_inj_left.mp h d hd
    exact chrUp_ne d (by have := hX d hd; omega) hd2 this.symm

/-- Whatever the arguments (signs and upper case included), the outcome is an error or a string of numerals of the same
length; there is no panic. -/
theorem C117_total (dec : Bool) (c : Ff1) (hc : c.Good) (X tweak : Bytes) :
    ff1Run dec c X tweak = .err ∨
    ∃ Z : List Nat, Digits c.radix Z ∧ Z.length = X.length ∧ c.minLen ≤ X.length ∧ (tweak.length : Int) ≤ c.maxTLen ∧
      ff1Run dec c X tweak = .ok (Z.map chr) := by
  have hr := hc.two
  have hm := hc.min
  unfold ff1Run
  simp only
  by_cases g1 : X.length < c.minLen ∨ X.length > 4294967295
  · left; rw [if_pos g1]
  rw [if_neg g1]
  by_cases g2 : (tweak.length : Int) > c.maxTLen
  · left; rw [if_pos g2]
  rw [if_neg g2]
  cases hp : parse c.radix X with
  | none => left; rfl
  | some x =>
    simp only
    cases ha : parse c.radix (X.take (X.length / 2)) with
    | none => left; rfl
    | some a =>
      cases hb : parse c.radix (X.drop (X.length / 2)) with
      | none => left; rfl
      | some b =>
        right
        simp only
        generalize hU : c.radix ^ (X.length / 2) = U
        generalize hV : c.radix ^ (X.length - X.length / 2) = V
        have pU : 0 < U := by rw [← hU]; exact Nat.pow_pos (by omega)
        have pV : 0 < V := by rw [← hV]; exact Nat.pow_pos (by omega)
        generalize ff1Y c.E c.radix X.length tweak = y
        -- after the first two rounds the state is in range
        have key : ∀ s : Int × Int, s = (if dec = true then (List.range 10).reverse.foldl (ff1DecRound y U V) (a, b)
            else (List.range 10).foldl (ff1EncRound y U V) (a, b)) → s.1.natAbs < U ∧ s.2.natAbs < V := by
          have e9 : ∀ t, (List.range 10).foldl (ff1EncRound y U V) t =
              ff1EncRound y U V (ff1EncRound y U V ((List.range 8).foldl (ff1EncRound y U V) t) 8) 9 := by
            intro t; rfl
          have d9 : ∀ t, (List.range 10).reverse.foldl (ff1DecRound y U V) t =
              ff1DecRound y U V (ff1DecRound y U V ([9, 8, 7, 6, 5, 4, 3, 2].foldl (ff1DecRound y U V) t) 1) 0 := by
            intro t; rfl
          intro s hs
          cases dec
          · simp only [Bool.false_eq_true, if_false] at hs
            rw [e9] at hs
            generalize (List.range 8).foldl (ff1EncRound y U V) (a, b) = t at hs
            rw [hs]
            simp only [ff1EncRound]
            have q1 := Int.emod_nonneg (t.1 + (y 8 t.2.natAbs : Int)) (show (U : Int) ≠ 0 by omega)
            have q2 := Int.emod_lt_of_pos (t.1 + (y 8 t.2.natAbs : Int)) (show (0 : Int) < U by omega)
            refine ⟨by rw [Int.natAbs_natCast, if_pos (by decide)]; omega, ?_⟩
            simp only [show (9 : Nat) % 2 ≠ 0 by decide, if_false]
            generalize ((t.2.natAbs : Int) + (y 9 _ : Int)) = w
            have q3 := Int.emod_nonneg w (show (V : Int) ≠ 0 by omega)
            have q4 := Int.emod_lt_of_pos w (show (0 : Int) < V by omega)
            omega
          · simp only [if_true] at hs
            rw [d9] at hs
            generalize [9, 8, 7, 6, 5, 4, 3, 2].foldl (ff1DecRound y U V) (a, b) = t at hs
            rw [hs]
            simp only [ff1DecRound]
            have q1 := Int.emod_nonneg (t.2 - (y 1 t.1.natAbs : Int)) (show (V : Int) ≠ 0 by omega)
            have q2 := Int.emod_lt_of_pos (t.2 - (y 1 t.1.natAbs : Int)) (show (0 : Int) < V by omega)
            refine ⟨?_, by rw [Int.natAbs_natCast, if_neg (by decide)]; omega⟩
            simp only [if_true]
            generalize ((t.1.natAbs : Int) - (y 0 _ : Int)) = w
            have q3 := Int.emod_nonneg w (show (U : Int) ≠ 0 by omega)
            have q4 := Int.emod_lt_of_pos w (show (0 : Int) < U by omega)
            omega
        generalize hs : (if dec = true then (List.range 10).reverse.foldl (ff1DecRound y U V) (a, b)
            else (List.range 10).foldl (ff1EncRound y U V) (a, b)) = s at key ⊢
        obtain ⟨k1, k2⟩ := key s rfl
        rw [← hU] at k1
        rw [← hV] at k2
        refine ⟨Spec.str c.radix (X.length / 2) s.1.natAbs ++ Spec.str c.radix (X.length - X.length / 2) s.2.natAbs,
          ?_, ?_, by omega, by omega, ?_⟩
        · intro d hd
          rcases List.mem_append.mp hd with h | h
          · exact str_digits _ _ _ (by omega) d h
          · exact str_digits _ _ _ (by omega) d h
        · simp; omega
        · rw [padText_eq _ hr _ _ (by omega) k1, padText_eq _ hr _ _ (by omega) k2, List.map_append]

/-! ### one cipher used by two goroutines -/

/-- The cipher object has one CBC encrypter with one IV register, and `ciph` (ff1.go:572-585) does two things to it:
`CryptBlocks` (reads the register, leaves the last block in it) and `SetIV(0)`. -/
inductive CiphStep where
  | crypt (g : Bool)
  | reset (g : Bool)

/-- The register and the PRF outputs of the two goroutines. -/
def ciphStep (E : Bytes → Bytes) (input : Bool → Bytes) (s : Bytes × (Bool → Bytes)) : CiphStep → Bytes × (Bool → Bytes)
  | .crypt g =>
    let o := cbcMac E ((input g).length / 16) s.1 (input g)
    (o, fun h => if h = g then o else s.2 h)
  | .reset _ => (List.replicate 16 0#8, s.2)

/-- A `Cipher` must not be shared between goroutines: a schedule exists in which one of two concurrent calls computes a
wrong PRF value (so Encrypt returns a string that does not decrypt). Run one after the other, both are right. -/
theorem C117_concurrent_violated : ∃ (E : Bytes → Bytes) (input : Bool → Bytes),
    (let s := [CiphStep.crypt false, .crypt true, .reset false, .reset true].foldl (ciphStep E input)
        (List.replicate 16 0#8, fun _ => [])
     s.2 true ≠ Spec.prf E (input true)) ∧
    (let s := [CiphStep.crypt false, .reset false, .crypt true, .reset true].foldl (ciphStep E input)
        (List.replicate 16 0#8, fun _ => [])
     s.2 true = Spec.prf E (input true) ∧ s.2 false = Spec.prf E (input false)) :=
  ⟨fun b => b.map (· + 1#8), fun g => List.replicate 16 (if g then 7#8 else 9#8), by decide +kernel, by decide +kernel⟩

/-! ### non-vacuity -/

/-- A small stand-in for AES. -/
def toyE (b : Bytes) : Bytes := (b.reverse.map (· * 3#8 + 7#8))
def toyC : Ff1 := { radix := 10, minLen := 2, maxTLen := 16, E := toyE, tweak := [] }

example : toyC.Good := ⟨by decide, by decide, by decide⟩
example : ∃ c, ff1New (fun _ => toyE) 10 16 (List.replicate 16 1#8) [] = .ok c :=
  (C117_new _ _ _ _ _).mpr ⟨by decide, by decide, by decide, by decide⟩

end Verif.Fpe
