import Verif.Kdf.Tree
import Verif.Kdf.TreeSpec
namespace Verif.Kdf
open Verif.Cipher

theorem kdf_eq (H : HashFn) (k l s : Bytes) : kdf H k l s = Spec.kdf256 H k l s := by
  simp [kdf, Spec.kdf256]

theorem kdf_length (H : HashFn) (k l s : Bytes) : (kdf H k l s).length = H.size := hmac_length _ _ _

theorem derived_eq (k : Bytes) (h : k.length = 32) : derived k = k := copyInto_eq_left _ _ (by simpa using h)

theorem copy_id (k : Bytes) : copyInto (List.replicate k.length 0#8) k = k := copyInto_eq_left _ _ (by simp)

/-- No call writes into a slice the tree handed out. -/
def quiet {α : Type} (os : List (TreeOp α)) : Prop := ∀ o ∈ os, ∀ i b, o ≠ .scribble i b

namespace Esp

structure Good (H : HashFn) (root : Bytes) (t : St) : Prop where
  rt : t.root = root
  prev : t.prev.length = 5
  key : t.key = Spec.espKey H root t.prev

theorem five (is : Bytes) (h : is.length = 5) : is = [is.getD 0 0, is.getD 1 0, is.getD 2 0, is.getD 3 0, is.getD 4 0] := by
  match is, h with
  | [a, b, c, d, e], _ => rfl

theorem deriveCached_good (H : HashFn) (root : Bytes) (t : St) (is : Bytes) (hr : t.root = root) (hl : t.prev.length = 5)
    (hk : t.prev = is → t.key = Spec.espKey H root is) (h : is.length = 5) :
    ∃ t' c, deriveCached H t is = .ok (t', Spec.espKey H root is, c) ∧ Good H root t' := by
  rw [deriveCached, if_neg (by simp [h])]
  by_cases e : t.prev = is
  · rw [if_pos e]
    exact ⟨{ t with handed := true }, true, by rw [hk e], hr, hl, by simp only; rw [hk e, e]⟩
  · rw [if_neg e]
    obtain ⟨a, b, c, d, f, rfl⟩ : ∃ a b c d f, is = [a, b, c, d, f] := ⟨_, _, _, _, _, five is h⟩
    have hc : copyInto t.prev [a, b, c, d, f] = [a, b, c, d, f] := copyInto_eq_left _ _ (by simp [hl])
    have hkk : kdf H (kdf H (kdf H t.root (level 1) ([0#8] ++ [a, b, c, d, f].take 1)) (level 2) (([a, b, c, d, f].drop 1).take 2))
        (level 3) (([a, b, c, d, f].drop 3).take 2) = Spec.espKey H root [a, b, c, d, f] := by
      rw [kdf_eq, kdf_eq, kdf_eq, hr]; rfl
    simp only [hkk]
    exact ⟨_, _, rfl, hr, by simp [hc], by simp [hc]⟩

theorem new_good (H : HashFn) (root : Bytes) : ∃ t, new H root = .ok t ∧ Good H root t := by
  obtain ⟨t, c, e, g⟩ := deriveCached_good H root ⟨copyInto (List.replicate root.length 0#8) root, [1, 0, 0, 0, 0], List.replicate 32 0#8, false⟩
    [0, 0, 0, 0, 0] (copy_id root) rfl (fun h => absurd (show ([1, 0, 0, 0, 0] : Bytes) = [0, 0, 0, 0, 0] from h) (by decide)) rfl
  refine ⟨{ t with handed := false }, ?_, g.rt, g.prev, g.key⟩
  rw [new, e]; rfl

theorem espKey_length (H : HashFn) (hs : H.size = 32) (root is : Bytes) : (Spec.espKey H root is).length = 32 := by
  rw [Spec.espKey, Spec.esp, Spec.kdf256, hmac_length, hs]

/-- The indices asked for in a history. -/
def asked {α : Type} : List (TreeOp α) → List α
  | [] => []
  | .derive x :: os => x :: asked os
  | .cached x :: os => x :: asked os
  | .scribble _ _ :: os => asked os

theorem run_good (H : HashFn) (hs : H.size = 32) (root : Bytes) (os : List (TreeOp Bytes)) (hq : quiet os)
    (h5 : ∀ is ∈ asked os, is.length = 5) : ∀ t, Good H root t →
    ∃ t', run H t os = .ok (t', (asked os).map fun is => (is, Spec.espKey H root is)) := by
  induction os with
  | nil => intro t _; exact ⟨t, rfl⟩
  | cons o os ih =>
    intro t g
    have hq' : quiet os := fun o' ho => hq o' (List.mem_cons_of_mem _ ho)
    cases o with
    | derive is =>
      obtain ⟨t', c, e, g'⟩ := deriveCached_good H root t is g.rt g.prev (fun h => h ▸ g.key) (h5 is (by simp [asked]))
      obtain ⟨t2, e2⟩ := ih hq' (fun x hx => h5 x (by simp [asked, hx])) { t' with handed := t.handed && c } ⟨g'.rt, g'.prev, g'.key⟩
      refine ⟨t2, ?_⟩
      simp only [run, call, e, Res.bind_ok, e2, derived_eq _ (espKey_length H hs root is), asked, List.map_cons, Option.toList]
      rfl
    | cached is =>
      obtain ⟨t', c, e, g'⟩ := deriveCached_good H root t is g.rt g.prev (fun h => h ▸ g.key) (h5 is (by simp [asked]))
      obtain ⟨t2, e2⟩ := ih hq' (fun x hx => h5 x (by simp [asked, hx])) t' g'
      refine ⟨t2, ?_⟩
      simp only [run, call, e, Res.bind_ok, e2, asked, List.map_cons, Option.toList]
      rfl
    | scribble i b => exact absurd rfl (hq _ (List.mem_cons_self) i b)

end Esp

namespace Tls

abbrev sKey (H : HashFn) (p : Params) (root : Bytes) (n : BitVec 64) : Bytes := Spec.tlsKey H p.m1 p.m2 p.m3 root n

structure Good (H : HashFn) (p : Params) (root : Bytes) (t : St) : Prop where
  params : t.params = p
  rt : t.root = root
  key : t.key = sKey H p root t.prev

/-- The cache test. -/
def hit (p : Params) (n m : BitVec 64) : Prop := n > 0 ∧ n &&& p.m1 = m &&& p.m1 ∧ n &&& p.m2 = m &&& p.m2 ∧ n &&& p.m3 = m &&& p.m3

theorem deriveCached_good (H : HashFn) (p : Params) (root : Bytes) (t : St) (n : BitVec 64) (hp : t.params = p) (hr : t.root = root)
    (hk : hit p n t.prev → t.key = sKey H p root t.prev) :
    Good H p root (deriveCached H t n).1 ∧ (deriveCached H t n).2.1 = sKey H p root n := by
  rw [deriveCached, hp]
  by_cases e : hit p n t.prev
  · have e' := e
    rw [hit] at e'
    rw [if_pos e']
    refine ⟨⟨rfl, hr, hk e⟩, ?_⟩
    simp only [hk e, sKey, Spec.tlsKey, e'.2.1, e'.2.2.1, e'.2.2.2]
  · have e' := e
    rw [hit] at e'
    rw [if_neg e']
    have hkk : kdf H (kdf H (kdf H t.root (level 1) (be8 (n &&& p.m1))) (level 2) (be8 (n &&& p.m2))) (level 3) (be8 (n &&& p.m3)) =
        sKey H p root n := by rw [kdf_eq, kdf_eq, kdf_eq, hr]; rfl
    simp only [hkk]
    exact ⟨⟨rfl, hr, rfl⟩, trivial⟩

theorem sKey_length (H : HashFn) (hs : H.size = 32) (p : Params) (root : Bytes) (n : BitVec 64) : (sKey H p root n).length = 32 := by
  rw [sKey, Spec.tlsKey, Spec.kdf256, hmac_length, hs]

theorem run_good (H : HashFn) (hs : H.size = 32) (p : Params) (root : Bytes) (os : List (TreeOp (BitVec 64))) (hq : quiet os) :
    ∀ t : St, t.params = p → t.root = root → (∀ n, (Esp.asked os).head? = some n → hit p n t.prev → t.key = sKey H p root t.prev) →
    run H t os = (Esp.asked os).map fun n => (n, sKey H p root n) := by
  induction os with
  | nil => intro t _ _ _; rfl
  | cons o os ih =>
    intro t hp hr hk
    have hq' : quiet os := fun o' ho => hq o' (List.mem_cons_of_mem _ ho)
    cases o with
    | derive n =>
      obtain ⟨g, e⟩ := deriveCached_good H p root t n hp hr (hk n rfl)
      simp only [run, call, Esp.asked, List.map_cons, e, derived_eq _ (sKey_length H hs p root n), Option.toList]
      rw [ih hq' { (deriveCached H t n).1 with handed := t.handed && (deriveCached H t n).2.2 } g.params g.rt (fun _ _ _ => g.key)]; rfl
    | cached n =>
      obtain ⟨g, e⟩ := deriveCached_good H p root t n hp hr (hk n rfl)
      simp only [run, call, Esp.asked, List.map_cons, e, Option.toList]
      rw [ih hq' _ g.params g.rt (fun _ _ _ => g.key)]; rfl
    | scribble i b => exact absurd rfl (hq _ (List.mem_cons_self) i b)

end Tls
end Verif.Kdf
