import Verif.Cipher.Cast
import Verif.Cipher.Cast256
/-
cipher/cast and cipher/cast256 are two implementations of the same cipher: the tables of constants of the first are the values the second computes.
-/
namespace Verif.Cipher.CastEq

abbrev W := BitVec 32

theorem rotl_mod32 (x : W) (m n : Nat) (h : m % 32 = n % 32) : rotl x m = rotl x n := by
  unfold rotl BitVec.rotateLeft
  rw [h]

theorem f1_eq (y x kr km : W) (r : Byte) (h : kr.toNat % 32 = r.toNat % 32) : Cast256.f1 y x kr km = y ^^^ Cast.f1 x r km := by
  unfold Cast256.f1 Cast.f1
  rw [rotl_mod32 _ _ _ h]
  rfl
theorem f2_eq (y x kr km : W) (r : Byte) (h : kr.toNat % 32 = r.toNat % 32) : Cast256.f2 y x kr km = y ^^^ Cast.f2 x r km := by
  unfold Cast256.f2 Cast.f2
  rw [rotl_mod32 _ _ _ h]
  rfl
theorem f3_eq (y x kr km : W) (r : Byte) (h : kr.toNat % 32 = r.toNat % 32) : Cast256.f3 y x kr km = y ^^^ Cast.f3 x r km := by
  unfold Cast256.f3 Cast.f3
  rw [rotl_mod32 _ _ _ h]
  rfl

set_option maxRecDepth 100000 in
theorem tabs : ∀ i, i < 12 → ∀ h, h < 2 → ∀ j, j < 8 →
    0x5a827999 + 0x6ed9eba1 * (BitVec.ofNat 32 (16 * i) + 8 * BitVec.ofNat 32 h) + 0x6ed9eba1 * BitVec.ofNat 32 j = Cast.tm.getD (8 * (2 * i + h) + j) 0 ∧
    (19 + 17 * (BitVec.ofNat 32 (16 * i) + 8 * BitVec.ofNat 32 h) + 17 * BitVec.ofNat 32 j : W).toNat % 32 = (Cast.tr.getD (8 * (2 * i + h) + j) 0).toNat % 32 := by
  decide +kernel

theorem pass_eq (k : List W) (cm cr : W) (r : Nat)
    (h : ∀ j, j < 8 → cm + 0x6ed9eba1 * BitVec.ofNat 32 j = Cast.tm.getD (8 * r + j) 0 ∧
      (cr + 17 * BitVec.ofNat 32 j : W).toNat % 32 = (Cast.tr.getD (8 * r + j) 0).toNat % 32) :
    Cast256.kRnd k cm cr = Cast.pass k r := by
  unfold Cast256.kRnd Cast.pass
  simp only [f1_eq _ _ _ _ _ (h 0 (by decide)).2, f2_eq _ _ _ _ _ (h 1 (by decide)).2, f3_eq _ _ _ _ _ (h 2 (by decide)).2, f1_eq _ _ _ _ _ (h 3 (by decide)).2,
    f2_eq _ _ _ _ _ (h 4 (by decide)).2, f3_eq _ _ _ _ _ (h 5 (by decide)).2, f1_eq _ _ _ _ _ (h 6 (by decide)).2, f2_eq _ _ _ _ _ (h 7 (by decide)).2,
    (h 0 (by decide)).1, (h 1 (by decide)).1, (h 2 (by decide)).1, (h 3 (by decide)).1, (h 4 (by decide)).1, (h 5 (by decide)).1, (h 6 (by decide)).1, (h 7 (by decide)).1]

theorem getD_app {α : Type} (a b : List α) (d : α) (i : Nat) : (a ++ b).getD i d = if i < a.length then a.getD i d else b.getD (i - a.length) d := by
  simp only [List.getD_eq_getElem?_getD, List.getElem?_append]
  split <;> rfl

/-- The keys of the two packages describe the same quad-rounds. -/
def Rel (n : Nat) (K : Cast.Key) (L : List W) : Prop :=
  K.km.length = 4 * n ∧ K.kr.length = 4 * n ∧ L.length = 8 * n ∧
  ∀ g, g < n → ∀ j, j < 4 → K.km.getD (4 * g + j) 0 = L.getD (8 * g + (4 + j)) 0 ∧ (L.getD (8 * g + j) 0).toNat % 32 = (K.kr.getD (4 * g + j) 0).toNat % 32

theorem and31 (x : W) : x.toNat % 32 = ((x &&& 0x1f).setWidth 8 : Byte).toNat % 32 := by
  rw [BitVec.toNat_setWidth, BitVec.toNat_and]
  have : (0x1f : W).toNat = 2 ^ 5 - 1 := rfl
  rw [this, Nat.and_two_pow_sub_one_eq_mod]
  omega

theorem Rel.snoc {n : Nat} {K : Cast.Key} {L : List W} (h : Rel n K L) (k : List W) :
    Rel (n + 1) ⟨K.km ++ [k.getD 7 0, k.getD 5 0, k.getD 3 0, k.getD 1 0],
      K.kr ++ [(k.getD 0 0 &&& 0x1f).setWidth 8, (k.getD 2 0 &&& 0x1f).setWidth 8, (k.getD 4 0 &&& 0x1f).setWidth 8, (k.getD 6 0 &&& 0x1f).setWidth 8]⟩
      (L ++ [k.getD 0 0, k.getD 2 0, k.getD 4 0, k.getD 6 0, k.getD 7 0, k.getD 5 0, k.getD 3 0, k.getD 1 0]) := by
  obtain ⟨h1, h2, h3, h4⟩ := h
  refine ⟨by simp [h1]; omega, by simp [h2]; omega, by simp [h3]; omega, ?_⟩
  intro g hg j hj
  simp only [getD_app, h1, h2, h3]
  by_cases hgn : g < n
  · rw [if_pos (by omega), if_pos (by omega), if_pos (by omega), if_pos (by omega)]
    exact h4 g hgn j hj
  · have : g = n := by omega
    subst this
    rw [if_neg (by omega), if_neg (by omega), if_neg (by omega), if_neg (by omega),
      show 4 * g + j - 4 * g = j from by omega, show 8 * g + (4 + j) - 8 * g = 4 + j from by omega, show 8 * g + j - 8 * g = j from by omega]
    rcases (by omega : j = 0 ∨ j = 1 ∨ j = 2 ∨ j = 3) with rfl | rfl | rfl | rfl <;> exact ⟨rfl, and31 _⟩

theorem expand_rel (key : Bytes) : Rel 12 (Cast.expandKey key) (Cast256.expandKey key) := by
  unfold Cast.expandKey Cast256.expandKey
  simp only
  generalize ldBE 32 4 8 (key ++ List.replicate (32 - key.length) 0) = k
  have main : ∀ n, n ≤ 12 → ∀ (X : Cast.Key × List W) (Y : List W × List W),
      X = (List.range n).foldl (fun (x : Cast.Key × List W) i =>
        let k := Cast.pass (Cast.pass x.2 (2 * i)) (2 * i + 1)
        (⟨x.1.km ++ [k.getD 7 0, k.getD 5 0, k.getD 3 0, k.getD 1 0],
          x.1.kr ++ [(k.getD 0 0 &&& 0x1f).setWidth 8, (k.getD 2 0 &&& 0x1f).setWidth 8, (k.getD 4 0 &&& 0x1f).setWidth 8, (k.getD 6 0 &&& 0x1f).setWidth 8]⟩, k)) (⟨[], []⟩, k) →
      Y = (List.range n).foldl (fun (x : List W × List W) i =>
        let n : W := BitVec.ofNat 32 (16 * i)
        let lk := Cast256.kRnd x.2 (0x5a827999 + 0x6ed9eba1 * n) (19 + 17 * n)
        let lk := Cast256.kRnd lk (0x5a827999 + 0x6ed9eba1 * (n + 8)) (19 + 17 * (n + 8))
        (x.1 ++ [lk.getD 0 0, lk.getD 2 0, lk.getD 4 0, lk.getD 6 0, lk.getD 7 0, lk.getD 5 0, lk.getD 3 0, lk.getD 1 0], lk)) ([], k) →
      X.2 = Y.2 ∧ Rel n X.1 Y.1 := by
    intro n
    induction n with
    | zero =>
      rintro _ X Y rfl rfl
      exact ⟨rfl, rfl, rfl, rfl, fun g hg => absurd hg (Nat.not_lt_zero _)⟩
    | succ n ih =>
      intro hn X Y hX hY
      rw [List.range_succ, List.foldl_append] at hX hY
      obtain ⟨e, r⟩ := ih (by omega) _ _ rfl rfl
      generalize (List.range n).foldl _ ((⟨[], []⟩, k) : Cast.Key × List W) = X' at hX e r
      generalize (List.range n).foldl _ (([], k) : List W × List W) = Y' at hY e r
      simp only [List.foldl_cons, List.foldl_nil] at hX hY
      have t0 := tabs n (by omega) 0 (by decide)
      have t1 := tabs n (by omega) 1 (by decide)
      have e0 : ∀ x : W, x + 8 * BitVec.ofNat 32 0 = x := fun x => BitVec.add_zero x
      have e1 : (8 : W) * BitVec.ofNat 32 1 = 8 := by decide
      simp only [e0, e1] at t0 t1
      rw [pass_eq _ _ _ (2 * n + 1) t1, pass_eq _ _ _ (2 * n) t0, ← e] at hY
      generalize Cast.pass (Cast.pass X'.2 (2 * n)) (2 * n + 1) = k' at hX hY
      subst hX hY
      exact ⟨rfl, r.snoc k'⟩
  exact (main 12 (Nat.le_refl _) _ _ rfl rfl).2

theorem fwd_eq (n : Nat) (K : Cast.Key) (L : List W) (h : Rel n K L) (g : Nat) (hg : g < n) (s : W × W × W × W) : Cast256.fwd L s g = Cast.fwd K s g := by
  obtain ⟨a, b, c, d⟩ := s
  have h := h.2.2.2 g hg
  unfold Cast256.fwd Cast.fwd
  simp only [f1_eq _ _ _ _ _ (h 0 (by decide)).2, f2_eq _ _ _ _ _ (h 1 (by decide)).2, f3_eq _ _ _ _ _ (h 2 (by decide)).2, f1_eq _ _ _ _ _ (h 3 (by decide)).2,
    (h 0 (by decide)).1, (h 1 (by decide)).1, (h 2 (by decide)).1, (h 3 (by decide)).1, Nat.reduceAdd]
theorem inv_eq (n : Nat) (K : Cast.Key) (L : List W) (h : Rel n K L) (g : Nat) (hg : g < n) (s : W × W × W × W) : Cast256.inv L s g = Cast.inv K s g := by
  obtain ⟨a, b, c, d⟩ := s
  have h := h.2.2.2 g hg
  unfold Cast256.inv Cast.inv
  simp only [f1_eq _ _ _ _ _ (h 0 (by decide)).2, f2_eq _ _ _ _ _ (h 1 (by decide)).2, f3_eq _ _ _ _ _ (h 2 (by decide)).2, f1_eq _ _ _ _ _ (h 3 (by decide)).2,
    (h 0 (by decide)).1, (h 1 (by decide)).1, (h 2 (by decide)).1, (h 3 (by decide)).1, Nat.reduceAdd]

theorem enc_eq (K : Cast.Key) (L : List W) (h : Rel 12 K L) : Cast256.enc L = Cast.enc K := by
  funext s
  simp only [Cast256.enc, Cast.enc, List.foldl_cons, List.foldl_nil, fwd_eq 12 K L h 0 (by decide), fwd_eq 12 K L h 1 (by decide), fwd_eq 12 K L h 2 (by decide),
    fwd_eq 12 K L h 3 (by decide), fwd_eq 12 K L h 4 (by decide), fwd_eq 12 K L h 5 (by decide), inv_eq 12 K L h 6 (by decide), inv_eq 12 K L h 7 (by decide),
    inv_eq 12 K L h 8 (by decide), inv_eq 12 K L h 9 (by decide), inv_eq 12 K L h 10 (by decide), inv_eq 12 K L h 11 (by decide)]
theorem dec_eq (K : Cast.Key) (L : List W) (h : Rel 12 K L) : Cast256.dec L = Cast.dec K := by
  funext s
  simp only [Cast256.dec, Cast.dec, List.reverse_cons, List.reverse_nil, List.nil_append, List.cons_append, List.foldl_cons, List.foldl_nil,
    inv_eq 12 K L h 0 (by decide), inv_eq 12 K L h 1 (by decide), inv_eq 12 K L h 2 (by decide),
    inv_eq 12 K L h 3 (by decide), inv_eq 12 K L h 4 (by decide), inv_eq 12 K L h 5 (by decide), fwd_eq 12 K L h 6 (by decide), fwd_eq 12 K L h 7 (by decide),
    fwd_eq 12 K L h 8 (by decide), fwd_eq 12 K L h 9 (by decide), fwd_eq 12 K L h 10 (by decide), fwd_eq 12 K L h 11 (by decide)]

theorem newCipher_eq : Cast256.newCipher = Cast.newCipher := by
  funext key
  have h := expand_rel key
  have he : Cast256.encrypt key = Cast.encrypt key := congrArg (enc4BE 32 4) (enc_eq _ _ h)
  have hd : Cast256.decrypt key = Cast.decrypt key := congrArg (enc4BE 32 4) (dec_eq _ _ h)
  unfold Cast256.newCipher Cast.newCipher
  rw [he, hd]
  rfl

end Verif.Cipher.CastEq
