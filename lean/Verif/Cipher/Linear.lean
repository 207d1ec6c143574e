import Verif.Cipher.Common
import Mathlib.Data.Fintype.EquivFin
import Mathlib.Data.Fintype.BigOperators
/-
Two facts used for the substitution-permutation ciphers: a map of blocks with a left inverse has it as a right inverse too, and maps of blocks that
are sums of their bytes compose like matrices.
-/
namespace Verif.Cipher

def bvEquiv (w : Nat) : BitVec w ≃ Fin (2 ^ w) := ⟨BitVec.toFin, BitVec.ofFin, fun _ => rfl, fun _ => rfl⟩
instance (w : Nat) : Finite (BitVec w) := Finite.of_equiv _ (bvEquiv w).symm

/-- Blocks of a fixed length are finitely many, so a left inverse is a right inverse. -/
theorem right_of_left (n : Nat) (E D : Bytes → Bytes) (lenE : ∀ b, b.length = n → (E b).length = n) (lenD : ∀ b, b.length = n → (D b).length = n)
    (DE : ∀ b, b.length = n → D (E b) = b) : ∀ b, b.length = n → E (D b) = b := by
  intro b hb
  have hfin : Finite { b : Bytes // b.length = n } := by
    have f : { b : Bytes // b.length = n } → (Fin n → Byte) := fun b i => b.1.get ⟨i, by rw [b.2]; exact i.2⟩
    refine Finite.of_injective (fun (b : { b : Bytes // b.length = n }) (i : Fin n) => b.1.get ⟨i, by rw [b.2]; exact i.2⟩) ?_
    intro x y hxy
    apply Subtype.ext
    apply List.ext_get (by rw [x.2, y.2])
    intro i h1 h2
    exact congrFun hxy ⟨i, by rw [← x.2]; exact h1⟩
  let f : { b : Bytes // b.length = n } → { b : Bytes // b.length = n } := fun b => ⟨E b.1, lenE _ b.2⟩
  have hinj : Function.Injective f := by
    intro x y hxy
    have h : E x.1 = E y.1 := congrArg Subtype.val hxy
    apply Subtype.ext
    rw [← DE x.1 x.2, h, DE y.1 y.2]
  obtain ⟨a, ha⟩ := (Finite.injective_iff_surjective.1 hinj) ⟨b, hb⟩
  have h : E a.1 = b := congrArg Subtype.val ha
  rw [← h, DE _ a.2]

/-- A block cipher from one direction. -/
theorem isBlock_left (bs : Nat) (E D : Bytes → Bytes) (lenE : ∀ b, b.length = bs → (E b).length = bs) (lenD : ∀ b, b.length = bs → (D b).length = bs)
    (DE : ∀ b, b.length = bs → D (E b) = b) : IsBlock bs (guarded bs (whole bs E)) (guarded bs (whole bs D)) E D :=
  isBlock_bytes bs E D lenE lenD DE (right_of_left bs E D lenE lenD DE)

/-! Sums of bytes -/

/-- The sum of a list of bytes. -/
def xs {w : Nat} (l : List (BitVec w)) : BitVec w := l.foldr (· ^^^ ·) 0

variable {w : Nat}

@[simp] theorem xs_nil : xs ([] : List (BitVec w)) = 0 := rfl
@[simp] theorem xs_cons (a : BitVec w) (l) : xs (a :: l) = a ^^^ xs l := rfl
theorem xs_append (a b : List (BitVec w)) : xs (a ++ b) = xs a ^^^ xs b := by
  induction a with
  | nil => simp
  | cons x a ih => rw [List.cons_append, xs_cons, ih, xs_cons, BitVec.xor_assoc]
theorem xs_map_xor {α : Type} (l : List α) (f g : α → BitVec w) : xs (l.map fun i => f i ^^^ g i) = xs (l.map f) ^^^ xs (l.map g) := by
  induction l with
  | nil => simp
  | cons a l ih => simp only [List.map_cons, xs_cons, ih]; ac_rfl
theorem xs_zero {α : Type} (l : List α) (f : α → BitVec w) (h : ∀ i ∈ l, f i = 0) : xs (l.map f) = 0 := by
  induction l with
  | nil => rfl
  | cons a l ih => simp [h a (by simp), ih (fun i hi => h i (by simp [hi]))]
theorem xs_flatMap {α β : Type} (l : List α) (g : α → List β) (f : β → BitVec w) : xs ((l.flatMap g).map f) = xs (l.map fun i => xs ((g i).map f)) := by
  induction l with
  | nil => rfl
  | cons a l ih => simp only [List.flatMap_cons, List.map_append, xs_append, ih, List.map_cons, xs_cons]
theorem xs_single (n a : Nat) (ha : a < n) (f : Nat → BitVec w) : xs ((List.range n).map fun k => if k = a then f k else 0) = f a := by
  induction n with
  | zero => omega
  | succ n ih =>
    rw [List.range_succ, List.map_append, xs_append]
    by_cases h : a = n
    · rw [xs_zero _ _ (fun i hi => if_neg (by have := List.mem_range.1 hi; omega))]
      simp [h]
    · rw [ih (by omega)]
      simp [show ¬ n = a from fun hc => h hc.symm]
theorem xs_congr {α : Type} (l : List α) (f g : α → BitVec w) (h : ∀ i ∈ l, f i = g i) : xs (l.map f) = xs (l.map g) := by
  rw [List.map_congr_left h]

/-- A sum with repeated terms: only the parity of the repetitions matters. -/
theorem xs_parity (n : Nat) (f : Nat → BitVec w) (l : List Nat) (h : ∀ k ∈ l, k < n) :
    xs (l.map f) = xs ((List.range n).map fun k => if l.count k % 2 = 1 then f k else 0) := by
  induction l with
  | nil => rw [xs_zero ((List.range n)) _ (fun i _ => by simp)]; rfl
  | cons a l ih =>
    rw [List.map_cons, xs_cons, ih (fun k hk => h k (by simp [hk])), ← xs_single n a (h a (by simp)) f, ← xs_map_xor]
    apply xs_congr
    intro k _
    by_cases hka : k = a
    · subst hka
      rw [if_pos rfl, List.count_cons_self]
      by_cases hp : List.count k l % 2 = 1
      · rw [if_pos hp, if_neg (by omega), BitVec.xor_self]; rfl
      · rw [if_neg hp, if_pos (by omega)]; exact BitVec.xor_zero
    · have hc : List.count k (a :: l) = List.count k l := List.count_cons_of_ne (fun hc => hka hc.symm)
      rw [if_neg hka, hc]
      exact BitVec.zero_xor

/-- The block whose byte `i` is the sum of the bytes of `x` at the indices in row `i`. -/
def rowMap (rows : List (List Nat)) (x : List (BitVec w)) : List (BitVec w) := rows.map fun r => xs (r.map fun j => x.getD j 0)

@[simp] theorem rowMap_length (rows : List (List Nat)) (x : List (BitVec w)) : (rowMap rows x).length = rows.length := by simp [rowMap]

theorem rowMap_getD (rows : List (List Nat)) (x : List (BitVec w)) (i : Nat) (h : i < rows.length) :
    (rowMap rows x).getD i 0 = xs ((rows.getD i []).map fun j => x.getD j 0) := by
  simp [rowMap, h]

/-- The parity check of a product of two such maps. -/
def RowsInv (n : Nat) (A B : List (List Nat)) : Prop :=
  A.length = n ∧ B.length = n ∧ (∀ i, i < n → ∀ j ∈ A.getD i [], j < n) ∧ (∀ i, i < n → ∀ j ∈ B.getD i [], j < n) ∧
  ∀ i, i < n → ∀ k, k < n → ((A.getD i []).flatMap fun j => B.getD j []).count k % 2 = if k = i then 1 else 0

theorem rowMap_inv {n : Nat} {A B : List (List Nat)} (h : RowsInv n A B) (x : List (BitVec w)) (hx : x.length = n) : rowMap A (rowMap B x) = x := by
  obtain ⟨hA, hB, h1, h2, h3⟩ := h
  apply List.ext_getElem (by simp [hA, hx])
  intro i hi hi'
  have hin : i < n := by rw [← hx]; exact hi'
  have e : (rowMap A (rowMap B x))[i] = (rowMap A (rowMap B x)).getD i 0 := by simp [List.getD_eq_getElem?_getD, List.getElem?_eq_getElem hi]
  rw [e, rowMap_getD _ _ _ (by omega)]
  have e2 : ((A.getD i []).map fun j => (rowMap B x).getD j 0) = (A.getD i []).map fun j => xs ((B.getD j []).map fun k => x.getD k 0) := by
    apply List.map_congr_left
    intro j hj
    exact rowMap_getD _ _ _ (by have := h1 i hin j hj; omega)
  rw [e2, ← xs_flatMap, xs_parity n]
  · have : ((List.range n).map fun k => if ((A.getD i []).flatMap fun j => B.getD j []).count k % 2 = 1 then x.getD k 0 else 0) =
        (List.range n).map fun k => if k = i then x.getD k 0 else 0 := by
      apply List.map_congr_left
      intro k hk
      rw [h3 i hin k (List.mem_range.1 hk)]
      by_cases hki : k = i <;> simp [hki]
    rw [this, xs_single n i hin]
    simp [List.getD_eq_getElem?_getD, List.getElem?_eq_getElem hi']
  · intro k hk
    obtain ⟨j, hj, hk⟩ := List.mem_flatMap.1 hk
    exact h2 j (h1 i hin j hj) k hk

theorem rowMap_xor (A : List (List Nat)) (n : Nat) (x y : Bytes) (hx : x.length = n) (hy : y.length = n) :
    rowMap A (xorb x y) = xorb (rowMap A x) (rowMap A y) := by
  have g : ∀ j, (xorb x y).getD j 0 = x.getD j 0 ^^^ y.getD j 0 := by
    intro j
    unfold xorb
    simp only [List.getD_eq_getElem?_getD, List.getElem?_zipWith]
    by_cases h : j < n
    · rw [List.getElem?_eq_getElem (by omega), List.getElem?_eq_getElem (by omega)]; rfl
    · rw [List.getElem?_eq_none (by omega), List.getElem?_eq_none (by omega)]; rfl
  unfold rowMap
  simp only [g, xs_map_xor]
  unfold xorb
  rw [List.zipWith_map, List.zipWith_self]

end Verif.Cipher
