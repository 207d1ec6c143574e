import Verif.Bencode.Model
/-
Decidable equality of values, for the examples.
-/
namespace Verif.Bencode

mutual
def beqV : Val → Val → Bool
  | .nil, .nil => true
  | .bool a, .bool b => a == b
  | .int a, .int b => a == b
  | .str a, .str b => a == b
  | .bytes a, .bytes b => a == b
  | .list a, .list b => beqL a b
  | .array a, .array b => beqL a b
  | .dict a, .dict b => beqD a b
  | _, _ => false
def beqL : List Val → List Val → Bool
  | [], [] => true
  | a :: s, b :: t => beqV a b && beqL s t
  | _, _ => false
def beqD : List (Bytes × Val) → List (Bytes × Val) → Bool
  | [], [] => true
  | a :: s, b :: t => beqP a b && beqD s t
  | _, _ => false
def beqP : Bytes × Val → Bytes × Val → Bool
  | (k, v), (k', v') => k == k' && beqV v v'
end

mutual
theorem eqV : ∀ a b, beqV a b = true → a = b
  | .nil, b, h => by cases b <;> simp_all [beqV]
  | .bool _, b, h => by cases b <;> simp_all [beqV]
  | .int _, b, h => by cases b <;> simp_all [beqV]
  | .str _, b, h => by cases b <;> simp_all [beqV]
  | .bytes _, b, h => by cases b <;> simp_all [beqV]
  | .list a, b, h => by
    cases b <;> simp [beqV] at h
    rw [eqL a _ h]
  | .array a, b, h => by
    cases b <;> simp [beqV] at h
    rw [eqL a _ h]
  | .dict a, b, h => by
    cases b <;> simp [beqV] at h
    rw [eqD a _ h]
theorem eqL : ∀ a b, beqL a b = true → a = b
  | [], b, h => by cases b <;> simp_all [beqL]
  | a :: s, b, h => by
    cases b with
    | nil => simp [beqL] at h
    | cons b t =>
      simp only [beqL, Bool.and_eq_true] at h
      rw [eqV a b h.1, eqL s t h.2]
theorem eqD : ∀ a b, beqD a b = true → a = b
  | [], b, h => by cases b <;> simp_all [beqD]
  | a :: s, b, h => by
    cases b with
    | nil => simp [beqD] at h
    | cons b t =>
      simp only [beqD, Bool.and_eq_true] at h
      rw [eqP a b h.1, eqD s t h.2]
theorem eqP : ∀ a b, beqP a b = true → a = b
  | (k, v), (k', v'), h => by
    simp only [beqP, Bool.and_eq_true, beq_iff_eq] at h
    rw [h.1, eqV v v' h.2]
end

/-- A check of a result by evaluation. -/
def isOk {α : Type} (p : α → Bool) : Res α → Bool
  | .ok a => p a
  | _ => false

theorem of_isOk {α : Type} {r : Res α} {a : α} (p : α → α → Bool) (hp : ∀ x, p x a = true → x = a)
    (h : isOk (fun x => p x a) r = true) : r = .ok a := by
  cases r with
  | ok x => rw [hp x h]
  | _ => simp [isOk] at h

theorem okV {r : Res Val} {a : Val} (h : isOk (fun x => beqV x a) r = true) : r = .ok a := of_isOk beqV (fun x => eqV x a) h
theorem okD {r : Res (List (Bytes × Val))} {a : List (Bytes × Val)} (h : isOk (fun x => beqD x a) r = true) : r = .ok a :=
  of_isOk beqD (fun x => eqD x a) h

def isErr {α : Type} : Res α → Bool
  | .err => true
  | _ => false
theorem of_isErr {α : Type} {r : Res α} (h : isErr r = true) : r = .err := by
  cases r <;> simp_all [isErr]

end Verif.Bencode
