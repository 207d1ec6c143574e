import Verif.Stream.HcLemmas
import Mathlib.Data.List.GetD
/-
Theorems about /repo/cipher/hc.
-/
namespace Verif.Strm.Hc
open Verif.Mode Verif.Cipher

theorem stLE_len (l : List W) : (stLE 4 l).length = 4 * l.length := by
  induction l with
  | nil => rfl
  | cons a l ih => rw [stLE, List.length_append, leBytes_length, ih, List.length_cons]; omega

theorem stLE_getD : ∀ (l : List W) (q : Nat), q < 4 * l.length → (stLE 4 l).getD q 0 = (leBytes 4 (at' l (q / 4)).toNat).getD (q % 4) 0
  | [], q, h => by simp at h
  | a :: l, q, h => by
    rw [stLE]
    by_cases hq : q < 4
    · rw [List.getD_append _ _ _ _ (by simpa using hq), Nat.div_eq_of_lt hq, Nat.mod_eq_of_lt hq]; rfl
    · rw [List.getD_append_right _ _ _ _ (by simpa using Nat.le_of_not_lt hq), leBytes_length,
        stLE_getD l (q - 4) (by rw [List.length_cons] at h; omega)]
      have e1 : q / 4 = (q - 4) / 4 + 1 := by omega
      have e2 : (q - 4) % 4 = q % 4 := by omega
      rw [e1, e2]; rfl

theorem take_eq_map (L : Bytes) (n : Nat) (h : n ≤ L.length) : L.take n = (List.range n).map fun i => L.getD i 0 := by
  apply List.ext_getElem (by simp [h])
  intro i h1 h2
  simp only [List.length_map, List.length_range] at h2
  rw [List.getElem_take, List.getElem_map, List.getElem_range, List.getD_eq_getElem?_getD, List.getElem?_eq_getElem (by omega)]
  rfl

/-- Whatever produces the blocks: `crypt` hands them out in order. -/
theorem crypt_stream (gen : St → St) (s0 : St) (hlen : ∀ b, (iterate gen (b + 1) s0).blk.length = 16) :
    IsStream Any (xorKeyStream (cryptStep gen)) ⟨s0, 0⟩
      (fun p => (stLE 4 (iterate gen (p / 64 + 1) s0).blk).getD (p % 64) 0) := by
  let ks : Nat → Byte := fun p => (stLE 4 (iterate gen (p / 64 + 1) s0).blk).getD (p % 64) 0
  let R : Obj → Nat → Prop := fun o p => ∃ b, o.st = iterate gen b s0 ∧
    ((o.pos = 0 ∧ p = 64 * b) ∨ (0 < o.pos ∧ o.pos ≤ 64 ∧ 1 ≤ b ∧ p = 64 * (b - 1) + o.pos))
  have hL : ∀ b, (stLE 4 (iterate gen (b + 1) s0).blk).length = 64 := fun b => by rw [stLE_len, hlen]
  have hblk : ∀ b n, n ≤ 64 → (stLE 4 (iterate gen (b + 1) s0).blk).take n = ksTake ks (64 * b) n := by
    intro b n hn
    rw [take_eq_map _ _ (by rw [hL]; exact hn), ksTake]
    apply List.map_congr_left
    intro i hi
    have hi := List.mem_range.mp hi
    show _ = (stLE 4 (iterate gen ((64 * b + i) / 64 + 1) s0).blk).getD ((64 * b + i) % 64) 0
    rw [Nat.mul_add_div (by omega), Nat.div_eq_of_lt (by omega), Nat.mul_add_mod, Nat.mod_eq_of_lt (show i < 64 by omega), Nat.add_zero]
  have hs : StreamOK (cryptStep gen) R (addRun ks) := by
    apply streamOK_of_addStep
    rintro e ⟨st, pos⟩ p m d s l ⟨b, hst, hp⟩ hl _
    simp only at hst hp
    unfold cryptStep
    by_cases h : 0 < pos ∧ pos < 64
    · rw [if_pos h]
      rcases hp with ⟨h0, _⟩ | ⟨_, _, hb, rfl⟩
      · omega
      · obtain ⟨c, rfl⟩ : ∃ c, b = c + 1 := ⟨b - 1, by omega⟩
        refine ⟨1, ⟨st, pos + 1⟩, Nat.le_refl _, hl, ?_, c + 1, hst, Or.inr ⟨by simp, by simp; omega, by omega, by simp; omega⟩⟩
        have : ((stLE 4 st.blk).drop pos).take 1 = ksTake ks (64 * (c + 1 - 1) + pos) 1 := by
          rw [show (1 : Nat) = (pos + 1) - pos from by omega, ← List.drop_take, hst, hblk c (pos + 1) (by omega), ksTake_drop _ _ _ _ (by omega)]
          congr 1; omega
        rw [this]
    · rw [if_neg h]
      have hpb : p = 64 * b := by
        rcases hp with ⟨_, h0⟩ | ⟨h1, h2, hb, h3⟩
        · exact h0
        · have : pos = 64 := by omega
          subst this; omega
      have hg : gen st = iterate gen (b + 1) s0 := by rw [iterate_succ, hst]
      simp only [hg]
      by_cases h64 : 64 ≤ l
      · rw [if_pos h64]
        refine ⟨64, ⟨iterate gen (b + 1) s0, 0⟩, by omega, h64, ?_, b + 1, rfl, Or.inl ⟨rfl, by omega⟩⟩
        rw [hpb, ← hblk b 64 (Nat.le_refl _), List.take_of_length_le (Nat.le_of_eq (hL b))]
      · rw [if_neg h64]
        refine ⟨l, ⟨iterate gen (b + 1) s0, l⟩, hl, Nat.le_refl _, ?_, b + 1, rfl, Or.inr ⟨hl, by simp; omega, by omega, by simp; omega⟩⟩
        rw [hpb, ← hblk b l (by omega)]
  refine isStream_of R ⟨0, rfl, Or.inl ⟨rfl, rfl⟩⟩ ?_ ?_
  · intro st p m dst src hR _ h2 h3
    obtain ⟨st', e1, e2, _⟩ := hs.call hR m dst src h2 h3
    refine ⟨st', ?_, ?_⟩
    · rw [e1]; simp [addRun, ksTake_keyBytes]; rfl
    · simpa [addRun] using e2
  · intro st m dst src hn
    unfold xorKeyStream
    by_cases h2 : src.len ≤ dst.len
    · have h3 : ¬ NoPartialOverlap dst src := fun h3 => hn ⟨h2, h3⟩
      rw [if_neg (by omega), if_pos (by simpa [NoPartialOverlap] using h3)]
    · rw [if_pos (by omega)]

/-! ### Set-up -/

theorem wLoop_length (w0 : List W) (n : Nat) : (wLoop w0 n).length = w0.length + n := by
  induction n with
  | zero => rfl
  | succ n ih => rw [wLoop, List.length_append, ih]; simp; omega

theorem slice_eq (w : List W) (a n : Nat) (h : a + n ≤ w.length) : (w.drop a).take n = (List.range n).map fun i => HcSpec.tab w (i + a) := by
  apply List.ext_getElem (by simp; omega)
  intro i h1 h2
  simp only [List.length_map, List.length_range] at h2
  rw [List.getElem_take, List.getElem_drop, List.getElem_map, List.getElem_range, HcSpec.tab, List.getD_eq_getElem?_getD,
    List.getElem?_eq_getElem (by omega)]
  simp [Nat.add_comm]

theorem rel_start (N : Nat) (hN : 32 ≤ N) (P Q : List W) (hP : P.length = N) (hQ : Q.length = N) :
    Rel N 0 ⟨P, Q, P.drop (N - 16), Q.drop (N - 16), List.replicate 16 0, 0⟩ ⟨P, Q⟩ := by
  have hc : ∀ T : List W, T.length = N → ∀ k, k < 16 → at' (T.drop (N - 16)) k = at' T ((0 + k + N - 16) % N) := by
    intro T hT k hk
    rw [Nat.mod_eq_of_lt (by omega), at', at']
    rw [List.getD_eq_getElem?_getD, List.getD_eq_getElem?_getD, List.getElem?_drop, show N - 16 + k = 0 + k + N - 16 from by omega]
  refine ⟨rfl, rfl, hP, hQ, by simp [hP]; omega, by simp [hQ]; omega, by simp, by simp, ?_, ?_⟩
  · intro k hk
    show at' (P.drop (N - 16)) k = at' P (((if 0 < N then 0 else 0) + k + N - 16) % N)
    rw [if_pos (by omega)]; exact hc P hP k hk
  · intro k hk
    show at' (Q.drop (N - 16)) k = at' Q (((if 0 < N then 0 else 0 - N) + k + N - 16) % N)
    rw [if_pos (by omega)]; exact hc Q hQ k hk

theorem Rel.restart {N b : Nat} {s : St} {T : HcSpec.Tables} (R : Rel N b s T) (h : 16 * b % (2 * N) = 0) : Rel N 0 s T :=
  { R with words := by rw [R.words, h]; simp }

theorem expand128_rel (key iv : Bytes) : Rel 512 0 (expand128 key iv) (HcSpec.start128 key iv) := by
  unfold expand128 HcSpec.start128
  simp only
  generalize hw0 : ldLE 32 4 4 key ++ ldLE 32 4 4 key ++ ldLE 32 4 4 iv ++ ldLE 32 4 4 iv = w0
  have hl : (wLoop w0 (1280 - 16)).length = 1280 := by rw [wLoop_length, ← hw0]; simp
  rw [← wLoop_eq]
  generalize wLoop w0 (1280 - 16) = w at hl
  rw [← slice_eq w 256 512 (by omega), ← slice_eq w 768 512 (by omega)]
  have hP : ((w.drop 256).take 512).length = 512 := by simp [hl]
  have hQ : ((w.drop 768).take 512).length = 512 := by simp [hl]
  generalize (w.drop 256).take 512 = P at hP
  generalize (w.drop 768).take 512 = Q at hQ
  have h := generate_iter (uP := updP) (uQ := updQ) (h := h1_128) (rel_start 512 (by omega) P Q hP hQ) (by omega) (by omega) 64
  rw [runInit_congr _ _ _ init128_eq] at h
  exact h.restart (by omega)

theorem expand256_rel (key iv : Bytes) : Rel 1024 0 (expand256 key iv) (HcSpec.start256 key iv) := by
  unfold expand256 HcSpec.start256
  simp only
  generalize hw0 : ldLE 32 4 8 key ++ ldLE 32 4 8 iv = w0
  have hl : (wLoop w0 (2560 - 16)).length = 2560 := by rw [wLoop_length, ← hw0]; simp
  rw [← wLoop_eq]
  generalize wLoop w0 (2560 - 16) = w at hl
  rw [← slice_eq w 512 1024 (by omega), ← slice_eq w 1536 1024 (by omega)]
  have hP : ((w.drop 512).take 1024).length = 1024 := by simp [hl]
  have hQ : ((w.drop 1536).take 1024).length = 1024 := by simp [hl]
  generalize (w.drop 512).take 1024 = P at hP
  generalize (w.drop 1536).take 1024 = Q at hQ
  have h := generate_iter (uP := upd256) (uQ := upd256) (h := h1) (rel_start 1024 (by omega) P Q hP hQ) (by omega) (by omega) 256
  rw [runInit_congr _ _ _ (fun i T => congrArg Prod.fst (step256_eq i T))] at h
  exact h.restart (by omega)

theorem ks128 (key iv : Bytes) (p : Nat) :
    (stLE 4 (iterate (generate 512 updPb updQb h1_128) (p / 64 + 1) (expand128 key iv)).blk).getD (p % 64) 0 =
      HcSpec.keystream128 key iv p := by
  have R := expand128_rel key iv
  have hb := (generate_iter (uP := updPb) (uQ := updQb) (h := h1_128) R (by omega) (by omega) (p / 64 + 1)).lenB
  rw [stLE_getD _ _ (by rw [hb]; omega), generate_word R (by omega) (by omega) (p / 64) (p % 64 / 4) (by omega),
    HcSpec.keystream128, HcSpec.word128, step128_eq, runInit_congr _ _ _ (fun i T => congrArg Prod.fst (step128_eq i T)),
    show 16 * (p / 64) + p % 64 / 4 = p / 4 from by omega, show p % 64 % 4 = p % 4 from by omega]

theorem ks256 (key iv : Bytes) (p : Nat) :
    (stLE 4 (iterate (generate 1024 upd256 upd256 h1) (p / 64 + 1) (expand256 key iv)).blk).getD (p % 64) 0 =
      HcSpec.keystream256 key iv p := by
  have R := expand256_rel key iv
  have hb := (generate_iter (uP := upd256) (uQ := upd256) (h := h1) R (by omega) (by omega) (p / 64 + 1)).lenB
  rw [stLE_getD _ _ (by rw [hb]; omega), generate_word R (by omega) (by omega) (p / 64) (p % 64 / 4) (by omega),
    HcSpec.keystream256, HcSpec.word256, step256_eq, runInit_congr _ _ _ (fun i T => congrArg Prod.fst (step256_eq i T)),
    show 16 * (p / 64) + p % 64 / 4 = p / 4 from by omega, show p % 64 % 4 = p % 4 from by omega]

theorem stream128 (key iv : Bytes) : IsStream Any xorKS128 ⟨expand128 key iv, 0⟩ (HcSpec.keystream128 key iv) := by
  have h := crypt_stream (generate 512 updPb updQb h1_128) (expand128 key iv)
    (fun b => (generate_iter (uP := updPb) (uQ := updQb) (h := h1_128) (expand128_rel key iv) (by omega) (by omega) (b + 1)).lenB)
  simp only [ks128] at h
  rw [xorKS128, skipEmpty_eq]
  exact h

theorem stream256 (key iv : Bytes) : IsStream Any xorKS256 ⟨expand256 key iv, 0⟩ (HcSpec.keystream256 key iv) := by
  have h := crypt_stream (generate 1024 upd256 upd256 h1) (expand256 key iv)
    (fun b => (generate_iter (uP := upd256) (uQ := upd256) (h := h1) (expand256_rel key iv) (by omega) (by omega) (b + 1)).lenB)
  simp only [ks256] at h
  rw [xorKS256, skipEmpty_eq]
  exact h

/-- C132 and C133 for HC-128 and HC-256.  `NewCipher` returns the HC-128 stream for a 16-byte key and IV, the HC-256 stream for
a 32-byte key and IV, and an error for all other lengths. -/
theorem C133_hc (key iv : Bytes) :
    (key.length = 16 ∧ iv.length = 16 → ∃ o, newCipher key iv = .ok (.c128 o) ∧ IsStream Any xorKS128 o (HcSpec.keystream128 key iv)) ∧
    (key.length = 32 ∧ iv.length = 32 → ∃ o, newCipher key iv = .ok (.c256 o) ∧ IsStream Any xorKS256 o (HcSpec.keystream256 key iv)) ∧
    (¬ (key.length = 16 ∧ iv.length = 16) ∧ ¬ (key.length = 32 ∧ iv.length = 32) → newCipher key iv = .err) := by
  refine ⟨?_, ?_, ?_⟩
  · rintro ⟨hk, hi⟩
    refine ⟨⟨expand128 key iv, 0⟩, ?_, stream128 key iv⟩
    unfold newCipher newCipher128
    rw [if_pos hk, if_neg (by omega), if_neg (by omega)]; rfl
  · rintro ⟨hk, hi⟩
    refine ⟨⟨expand256 key iv, 0⟩, ?_, stream256 key iv⟩
    unfold newCipher newCipher256
    rw [if_neg (by omega), if_pos hk, if_neg (by omega), if_neg (by omega)]; rfl
  · rintro ⟨h1, h2⟩
    unfold newCipher newCipher128 newCipher256
    by_cases hk : key.length = 16
    · rw [if_pos hk, if_neg (by omega), if_pos (by omega)]; rfl
    · rw [if_neg hk]
      by_cases hk : key.length = 32
      · rw [if_pos hk, if_neg (by omega), if_pos (by omega)]; rfl
      · rw [if_neg hk]

example : ∃ o, newCipher (List.replicate 16 1) (List.replicate 16 2) = .ok (.c128 o) := ⟨_, rfl⟩
example : ∃ o, newCipher (List.replicate 32 1) (List.replicate 32 2) = .ok (.c256 o) := ⟨_, rfl⟩
example : newCipher (List.replicate 32 1) (List.replicate 16 2) = .err := rfl

end Verif.Strm.Hc
