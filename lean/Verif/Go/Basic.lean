/-
Go semantics shared by all models: bytes, result values, `copy`, `subtle.XORBytes`.
-/
namespace Verif

/-- Go `byte` / `uint8`. -/
abbrev Byte := BitVec 8

/-- The contents of a Go `[]byte`. -/
abbrev Bytes := List Byte

/-- Outcome of a Go call: normal result, returned error, panic, or `hang` for a loop that did not finish
within the number of iterations given to the model (the models choose a number no terminating run needs
to exceed, or a theorem quantifies over it). -/
inductive Res (α : Type u) where
  | ok (a : α)
  | err
  | panic
  | hang
  deriving Repr, DecidableEq

namespace Res

def bind {α : Type u} {β : Type v} (x : Res α) (f : α → Res β) : Res β :=
  match x with
  | ok a => f a
  | err => err
  | panic => panic
  | hang => hang

instance : Monad Res where
  pure := ok
  bind := bind

@[simp] theorem bind_ok {α β} (a : α) (f : α → Res β) : (Res.ok a >>= f) = f a := rfl
@[simp] theorem bind_err {α β} (f : α → Res β) : ((Res.err : Res α) >>= f) = Res.err := rfl
@[simp] theorem bind_panic {α β} (f : α → Res β) : ((Res.panic : Res α) >>= f) = Res.panic := rfl
@[simp] theorem bind_hang {α β} (f : α → Res β) : ((Res.hang : Res α) >>= f) = Res.hang := rfl
@[simp] theorem pure_eq {α} (a : α) : (pure a : Res α) = Res.ok a := rfl

end Res

/-- `subtle.XORBytes` restricted to what it stores: the XOR of the first `min (len x) (len y)` bytes. -/
def xorb (x y : Bytes) : Bytes := List.zipWith (· ^^^ ·) x y

/-- Go `copy(dst, src)` on the contents of `dst` (no overlap): the first `min` bytes are replaced. -/
def copyInto (dst src : Bytes) : Bytes := src.take dst.length ++ dst.drop src.length

@[simp] theorem xorb_length (x y : Bytes) : (xorb x y).length = min x.length y.length := by
  simp [xorb]

@[simp] theorem xorb_nil_left (y : Bytes) : xorb [] y = [] := rfl
@[simp] theorem xorb_nil_right (y : Bytes) : xorb y [] = [] := by cases y <;> rfl
@[simp] theorem xorb_cons (a b : Byte) (x y : Bytes) :
    xorb (a :: x) (b :: y) = (a ^^^ b) :: xorb x y := rfl

theorem xorb_comm (x y : Bytes) : xorb x y = xorb y x := by
  induction x generalizing y with
  | nil => simp
  | cons a x ih => cases y with
    | nil => simp
    | cons b y => simp [ih, BitVec.xor_comm]

theorem xorb_assoc (x y z : Bytes) : xorb (xorb x y) z = xorb x (xorb y z) := by
  induction x generalizing y z with
  | nil => simp
  | cons a x ih => cases y with
    | nil => simp
    | cons b y => cases z with
      | nil => simp
      | cons c z => simp [ih, BitVec.xor_assoc]

/-- XOR twice with the same string is the identity (when the mask is long enough). -/
theorem xorb_xorb_cancel_right (x y : Bytes) (h : x.length ≤ y.length) :
    xorb (xorb x y) y = x := by
  induction x generalizing y with
  | nil => simp
  | cons a x ih => cases y with
    | nil => simp at h
    | cons b y =>
      simp only [List.length_cons, Nat.add_le_add_iff_right] at h
      simp [ih y h, BitVec.xor_assoc]

theorem xorb_xorb_cancel_left (x y : Bytes) (h : x.length ≤ y.length) :
    xorb y (xorb y x) = x := by
  rw [xorb_comm y (xorb y x), xorb_comm y x, xorb_xorb_cancel_right x y h]

theorem xorb_xorb_cancel_mid (x y : Bytes) (h : x.length ≤ y.length) :
    xorb y (xorb x y) = x := by
  rw [xorb_comm x y, xorb_xorb_cancel_left x y h]

theorem xorb_self (x : Bytes) : xorb x x = List.replicate x.length 0 := by
  induction x with
  | nil => simp
  | cons a x ih => simp [ih, List.replicate_succ]

theorem xorb_append (a b c d : Bytes) (h : a.length = c.length) :
    xorb (a ++ b) (c ++ d) = xorb a c ++ xorb b d := by
  simp [xorb, List.zipWith_append h]

theorem xorb_take (x y : Bytes) (n : Nat) : (xorb x y).take n = xorb (x.take n) (y.take n) := by
  simp [xorb, List.take_zipWith]

theorem xorb_drop (x y : Bytes) (n : Nat) : (xorb x y).drop n = xorb (x.drop n) (y.drop n) := by
  simp [xorb, List.drop_zipWith]

theorem xorb_zeros_left (y : Bytes) (n : Nat) (h : y.length ≤ n) :
    xorb (List.replicate n 0) y = y := by
  induction y generalizing n with
  | nil => simp
  | cons b y ih => cases n with
    | zero => simp at h
    | succ n =>
      simp only [List.length_cons, Nat.add_le_add_iff_right] at h
      simp [List.replicate_succ]; exact ih n h

theorem xorb_zeros_right (y : Bytes) (n : Nat) (h : y.length ≤ n) :
    xorb y (List.replicate n 0) = y := by
  rw [xorb_comm, xorb_zeros_left y n h]

theorem xorb_getElem (x y : Bytes) (i : Nat) (h : i < (xorb x y).length) :
    (xorb x y)[i] = x[i]'(by simp at h; omega) ^^^ y[i]'(by simp at h; omega) := by
  simp [xorb]

@[simp] theorem copyInto_length (d s : Bytes) : (copyInto d s).length = d.length := by
  simp [copyInto]; omega

theorem copyInto_eq_left (d s : Bytes) (h : s.length = d.length) : copyInto d s = s := by
  simp [copyInto, ← h]

end Verif
