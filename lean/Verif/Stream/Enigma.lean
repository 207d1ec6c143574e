import Verif.Stream.Base
import Mathlib.Data.Fintype.EquivFin
/-
Model of cipher/enigma. The rotors of int8 are lists of bytes: every entry is masked with 0377 before it is used as an index, and sums and differences are taken
modulo 256 in the end, so the sign does not matter.
-/
namespace Verif.Strm.Enigma
open Verif.Mode

/-- Rotors and counters (cipher/enigma/enigma.go:22-30), without `deck` and `nr1`, which are not used as long as `secureflg` is 0, and it always is. -/
structure St where
  t1 : Bytes
  t2 : Bytes
  t3 : Bytes
  n1 : Nat
  n2 : Nat
  nr2 : Nat

def at_ (t : Bytes) (i : Byte) : Byte := t.getD i.toNat 0

/-- One byte (cipher/enigma/enigma.go:77-87). -/
def sub (s : St) (i : Byte) : Byte :=
  let n1 := BitVec.ofNat 8 s.n1
  let n2 := BitVec.ofNat 8 s.nr2
  at_ s.t2 (at_ s.t3 (at_ s.t1 (i + n1) + n2) - n2) - n1
/-- The counters after a byte (cipher/enigma/enigma.go:89-105). -/
def next (s : St) : St :=
  if s.n1 + 1 = 256 then
    let n2 := if s.n2 + 1 = 256 then 0 else s.n2 + 1
    { s with n1 := 0, n2 := n2, nr2 := n2 }
  else { s with n1 := s.n1 + 1 }
/-- The loop of XORKeyStream (cipher/enigma/enigma.go:70-106). -/
def crypt (s : St) : Bytes → Bytes × St
  | [] => ([], s)
  | b :: l => let r := crypt (next s) l; (sub s b :: r.1, r.2)
/-- XORKeyStream (cipher/enigma/enigma.go:53-109): the loop works on a copy. -/
def call (s : St) (m : Mem) (dst src : Slice) : Res (Mem × St) :=
  if dst.len < src.len then .panic
  else if inexactOverlap ⟨dst.ptr, src.len, dst.cap⟩ src then .panic
  else
    let r := crypt s (m.read src.ptr src.len)
    .ok (m.write dst.ptr r.1, r.2)

/-- `int32(this.cbuf[i])`. -/
def cb (key : Bytes) (i : Nat) : BitVec 32 := (key.getD i 0).signExtend 32
/-- The seed (cipher/enigma/enigma.go:125-128). -/
def seed0 (key : Bytes) (seed : BitVec 32) : BitVec 32 := (List.range 13).foldl (fun s i => s * cb key i + BitVec.ofNat 32 i) seed

/-- `for this.t3[ic] != 0 { ic = (ic + 1) % k }` (cipher/enigma/enigma.go:153-155). -/
def search (t3 : Bytes) (k : Nat) : Nat → Nat → Option Nat
  | 0, _ => none
  | f + 1, ic => if t3.getD ic 0 = 0 then some ic else search t3 k f ((ic + 1) % k)

/-- `t[k], t[ic] = t[ic], t[k]` (cipher/enigma/enigma.go:144-146). -/
def swap (t : Bytes) (k ic : Nat) : Bytes := (t.set k (t.getD ic 0)).set ic (t.getD k 0)

/-- The loop that makes the rotors (cipher/enigma/enigma.go:135-159), from `k = n - 1` down to 0. Division by `k = 0` panics; the search has more fuel than there
are positions, to run out of it is to loop for ever. -/
def rotors (key : Bytes) : Nat → BitVec 32 → Bytes → Bytes → Res (Bytes × Bytes)
  | 0, _, t1, t3 => .ok (t1, t3)
  | k + 1, seed, t1, t3 =>
    let seed := 5 * seed + cb key ((255 - k) % 13)
    let random := BitVec.srem seed 65521
    let t1 := swap t1 k ((random &&& 255).toNat % (k + 1))
    if t3.getD k 0 ≠ 0 then rotors key k seed t1 t3
    else if k = 0 then .panic
    else match search t3 k 257 (((random >>> 8) &&& 255).toNat % k) with
      | none => .hang
      | some ic => rotors key k seed t1 ((t3.set k (BitVec.ofNat 8 ic)).set ic (BitVec.ofNat 8 k))

/-- `t2` (cipher/enigma/enigma.go:161-163). -/
def invert (t1 : Bytes) : Bytes := (List.range 256).foldl (fun t2 i => t2.set (t1.getD i 0).toNat (BitVec.ofNat 8 i)) (List.replicate 256 0)

/-- NewCipherWithSeed and expandKey (cipher/enigma/enigma.go:39-51, 111-164). -/
def newCipher (key : Bytes) (seed : BitVec 32) : Res St :=
  if key.length = 13 then
    (rotors key 256 (seed0 key seed) ((List.range 256).map (BitVec.ofNat 8)) (List.replicate 256 0)).bind fun r =>
      .ok ⟨r.1, invert r.1, r.2, 0, 0, 0⟩
  else .err

/-! The first rotor -/

theorem swap_length (t : Bytes) (k ic : Nat) : (swap t k ic).length = t.length := by simp [swap]

theorem getD_set (t : Bytes) (i j : Nat) (v : Byte) : (t.set i v).getD j 0 = if i = j ∧ i < t.length then v else t.getD j 0 := by
  simp only [List.getD_eq_getElem?_getD, List.getElem?_set]
  by_cases h : i = j
  · subst h
    by_cases h2 : i < t.length
    · simp [h2]
    · simp [h2]
  · simp [h]

/-- Every byte is an entry. -/
def Onto (t : Bytes) : Prop := t.length = 256 ∧ ∀ b : Byte, ∃ i, i < 256 ∧ t.getD i 0 = b

theorem swap_onto (t : Bytes) (k ic : Nat) (hk : k < 256) (hi : ic < 256) (h : Onto t) : Onto (swap t k ic) := by
  refine ⟨by rw [swap_length, h.1], fun b => ?_⟩
  obtain ⟨i, hi', e⟩ := h.2 b
  have l := h.1
  by_cases c1 : i = k
  · refine ⟨ic, hi, ?_⟩
    unfold swap
    rw [getD_set, if_pos ⟨rfl, by simp; omega⟩, ← c1, e]
  · by_cases c2 : i = ic
    · by_cases c3 : ic = k
      · omega
      · refine ⟨k, hk, ?_⟩
        unfold swap
        rw [getD_set, if_neg (by omega), getD_set, if_pos ⟨rfl, by omega⟩, ← c2, e]
    · refine ⟨i, hi', ?_⟩
      unfold swap
      rw [getD_set, if_neg (by omega), getD_set, if_neg (by omega), e]

/-- A list of 256 bytes that has all bytes has none twice. -/
theorem onto_inj (t : Bytes) (h : Onto t) (i j : Nat) (hi : i < 256) (hj : j < 256) (e : t.getD i 0 = t.getD j 0) : i = j := by
  let f : Fin 256 → Fin 256 := fun i => ⟨(t.getD i.1 0).toNat, (t.getD i.1 0).isLt⟩
  have hs : Function.Surjective f := by
    intro b
    obtain ⟨i, hi, e⟩ := h.2 (BitVec.ofNat 8 b.1)
    refine ⟨⟨i, hi⟩, Fin.ext ?_⟩
    show (t.getD i 0).toNat = b.1
    rw [e, BitVec.toNat_ofNat]
    exact Nat.mod_eq_of_lt b.2
  have hinj : Function.Injective f := Finite.injective_iff_surjective.mpr hs
  have := hinj (a₁ := ⟨i, hi⟩) (a₂ := ⟨j, hj⟩) (Fin.ext (by show (t.getD i 0).toNat = (t.getD j 0).toNat; rw [e]))
  exact congrArg Fin.val this

theorem invert_at (t : Bytes) (h : Onto t) (i : Nat) (hi : i < 256) : (invert t).getD (t.getD i 0).toNat 0 = BitVec.ofNat 8 i := by
  unfold invert
  have key : ∀ n, n ≤ 256 → ((List.range n).foldl (fun t2 i => t2.set (t.getD i 0).toNat (BitVec.ofNat 8 i)) (List.replicate 256 (0 : Byte))).length = 256 ∧
      ∀ i, i < n → ((List.range n).foldl (fun t2 i => t2.set (t.getD i 0).toNat (BitVec.ofNat 8 i)) (List.replicate 256 (0 : Byte))).getD (t.getD i 0).toNat 0 = BitVec.ofNat 8 i := by
    intro n
    induction n with
    | zero => intro _; exact ⟨List.length_replicate, fun i hi => absurd hi (by omega)⟩
    | succ n ih =>
      intro hn
      obtain ⟨l, e⟩ := ih (by omega)
      rw [List.range_succ, List.foldl_append]
      generalize (List.range n).foldl (fun t2 i => t2.set (t.getD i 0).toNat (BitVec.ofNat 8 i)) (List.replicate 256 (0 : Byte)) = x at l e
      simp only [List.foldl_cons, List.foldl_nil]
      refine ⟨by rw [List.length_set, l], fun i hi => ?_⟩
      rw [getD_set]
      by_cases c : i = n
      · subst c
        rw [if_pos ⟨rfl, by rw [l]; exact (t.getD i 0).isLt⟩]
      · rw [if_neg, e i (by omega)]
        intro hc
        exact c (onto_inj t h i n (by omega) (by omega) (BitVec.eq_of_toNat_eq hc.1.symm))
  exact (key 256 (Nat.le_refl _)).2 i hi

theorem inv_left (t : Bytes) (h : Onto t) (x : Byte) : at_ (invert t) (at_ t x) = x := by
  unfold at_
  rw [invert_at t h _ x.isLt]
  exact BitVec.eq_of_toNat_eq (by simp)
theorem inv_right (t : Bytes) (h : Onto t) (y : Byte) : at_ t (at_ (invert t) y) = y := by
  obtain ⟨i, hi, e⟩ := h.2 y
  unfold at_
  rw [← e, invert_at t h i hi, BitVec.toNat_ofNat, Nat.mod_eq_of_lt (by omega)]

/-! The third rotor -/

/-- The number of zeros among the first entries. -/
def zeros (t : Bytes) : Nat → Nat
  | 0 => 0
  | n + 1 => zeros t n + if t.getD n 0 = 0 then 1 else 0

theorem zeros_congr (t u : Bytes) (n : Nat) (h : ∀ i, i < n → t.getD i 0 = u.getD i 0) : zeros t n = zeros u n := by
  induction n with
  | zero => rfl
  | succ n ih => rw [zeros, zeros, ih (fun i hi => h i (by omega)), h n (by omega)]
theorem zeros_set (t : Bytes) (n i : Nat) (v : Byte) (hi : i < n) (hl : i < t.length) (h0 : t.getD i 0 = 0) (hv : v ≠ 0) : zeros (t.set i v) n + 1 = zeros t n := by
  induction n with
  | zero => omega
  | succ n ih =>
    rw [zeros, zeros, getD_set]
    by_cases c : i = n
    · subst c
      rw [if_pos (show i = i ∧ i < t.length from ⟨rfl, hl⟩), if_neg hv, if_pos h0, zeros_congr (t.set i v) t i (fun j hj => by rw [getD_set, if_neg (by omega)])]
    · rw [if_neg (show ¬ (i = n ∧ i < t.length) from fun h => c h.1), ← ih (by omega)]
      omega
theorem zeros_pos (t : Bytes) (n : Nat) (h : 0 < zeros t n) : ∃ z, z < n ∧ t.getD z 0 = 0 := by
  induction n with
  | zero => simp [zeros] at h
  | succ n ih =>
    by_cases c : t.getD n 0 = 0
    · exact ⟨n, by omega, c⟩
    · rw [zeros, if_neg c] at h
      obtain ⟨z, hz, e⟩ := ih (by omega)
      exact ⟨z, by omega, e⟩

theorem search_ok (t : Bytes) (k : Nat) (d f ic : Nat) (hf : d < f) (hk : ic < k) (hz : t.getD ((ic + d) % k) 0 = 0) :
    ∃ j, search t k f ic = some j ∧ j < k ∧ t.getD j 0 = 0 := by
  induction d generalizing f ic with
  | zero =>
    obtain ⟨f, rfl⟩ : ∃ g, f = g + 1 := ⟨f - 1, by omega⟩
    rw [Nat.add_zero, Nat.mod_eq_of_lt hk] at hz
    exact ⟨ic, by rw [search, if_pos hz], hk, hz⟩
  | succ d ih =>
    obtain ⟨f, rfl⟩ : ∃ g, f = g + 1 := ⟨f - 1, by omega⟩
    by_cases c : t.getD ic 0 = 0
    · exact ⟨ic, by rw [search, if_pos c], hk, c⟩
    · rw [search, if_neg c]
      refine ih f _ (by omega) (Nat.mod_lt _ (by omega)) ?_
      rw [Nat.mod_add_mod]
      rw [show ic + 1 + d = ic + (d + 1) from by omega]
      exact hz

theorem search_found (t : Bytes) (k ic z : Nat) (hk : ic < k) (h256 : k ≤ 256) (hz : z < k) (h : t.getD z 0 = 0) :
    ∃ j, search t k 257 ic = some j ∧ j < k ∧ t.getD j 0 = 0 := by
  refine search_ok t k ((z + k - ic) % k) 257 ic (Nat.lt_of_lt_of_le (Nat.mod_lt _ (by omega)) (by omega)) hk ?_
  rw [Nat.add_mod_mod, show ic + (z + k - ic) = z + k from by omega, Nat.add_mod_right, Nat.mod_eq_of_lt hz]
  exact h

/-- Positions from `n` on are done, and among the others those with an entry other than 0; the others are an even number. -/
structure Inv (n : Nat) (t : Bytes) : Prop where
  len : t.length = 256
  pair : ∀ x, x < 256 → (n ≤ x ∨ t.getD x 0 ≠ 0) → (t.getD (t.getD x 0).toNat 0).toNat = x ∧ (t.getD x 0).toNat ≠ x ∧
    (n ≤ (t.getD x 0).toNat ∨ t.getD (t.getD x 0).toNat 0 ≠ 0)
  even : zeros t n % 2 = 0

theorem inv_skip (k : Nat) (t : Bytes) (h : Inv (k + 1) t) (hk : t.getD k 0 ≠ 0) : Inv k t := by
  refine ⟨h.len, fun x hx hd => ?_, ?_⟩
  · have : k + 1 ≤ x ∨ t.getD x 0 ≠ 0 := by
      rcases hd with hd | hd
      · by_cases c : x = k
        · right; rw [c]; exact hk
        · left; omega
      · exact .inr hd
    obtain ⟨a, b, c⟩ := h.pair x hx this
    exact ⟨a, b, c.imp (fun h => by omega) id⟩
  · have := h.even
    rw [zeros, if_neg hk] at this
    exact this

theorem toNat_ofNat8 (n : Nat) (h : n < 256) : (BitVec.ofNat 8 n).toNat = n := by rw [BitVec.toNat_ofNat]; exact Nat.mod_eq_of_lt h

theorem inv_set (k ic : Nat) (t : Bytes) (h : Inv (k + 1) t) (hk : k < 256) (h0 : t.getD k 0 = 0) (hi : ic < k) (hz : t.getD ic 0 = 0) :
    Inv k ((t.set k (BitVec.ofNat 8 ic)).set ic (BitVec.ofNat 8 k)) := by
  have l := h.len
  have g : ∀ j, ((t.set k (BitVec.ofNat 8 ic)).set ic (BitVec.ofNat 8 k)).getD j 0 = if j = ic then BitVec.ofNat 8 k else if j = k then BitVec.ofNat 8 ic else t.getD j 0 := by
    intro j
    rw [getD_set, getD_set]
    simp only [List.length_set, l]
    by_cases c1 : j = ic
    · rw [if_pos ⟨c1.symm, by omega⟩, if_pos c1]
    · rw [if_neg (by omega), if_neg c1]
      by_cases c2 : j = k
      · rw [if_pos ⟨c2.symm, hk⟩, if_pos c2]
      · rw [if_neg (by omega), if_neg c2]
  have vk := toNat_ofNat8 k hk
  have vi := toNat_ofNat8 ic (by omega)
  have nk : BitVec.ofNat 8 k ≠ 0 := by
    intro hc
    rw [hc] at vk
    simp at vk
    omega
  refine ⟨by simp [l], fun x hx hd => ?_, ?_⟩
  · by_cases c1 : x = ic
    · rw [g x, if_pos c1, vk, g k, if_neg (by omega), if_pos rfl, vi]
      exact ⟨c1.symm, by omega, .inl (Nat.le_refl _)⟩
    · by_cases c2 : x = k
      · rw [g x, if_neg c1, if_pos c2, vi, g ic, if_pos rfl, vk]
        exact ⟨c2.symm, by omega, .inr nk⟩
      · rw [g x, if_neg c1, if_neg c2] at hd ⊢
        obtain ⟨a, b, c⟩ := h.pair x hx (hd.imp (fun h => by omega) id)
        have m1 : (t.getD x 0).toNat ≠ ic := by
          intro hc
          rw [hc, hz] at c
          rcases c with c | c
          · omega
          · exact c rfl
        have m2 : (t.getD x 0).toNat ≠ k := by
          intro hc
          rw [hc, h0] at c
          rcases c with c | c
          · omega
          · exact c rfl
        rw [g, if_neg m1, if_neg m2]
        exact ⟨a, b, c.imp (fun h => by omega) id⟩
  · have e := h.even
    rw [zeros, if_pos h0] at e
    have e2 := zeros_set (t.set k (BitVec.ofNat 8 ic)) k ic (BitVec.ofNat 8 k) hi (by simp [l]; omega) (by rw [getD_set, if_neg (by omega)]; exact hz) nk
    rw [zeros_congr (t.set k (BitVec.ofNat 8 ic)) t k (fun j hj => by rw [getD_set, if_neg (by omega)])] at e2
    omega

theorem rotors_ok (key : Bytes) (n : Nat) (hn : n ≤ 256) (seed : BitVec 32) (t1 t3 : Bytes) (h1 : Onto t1) (h3 : Inv n t3) :
    ∃ r, rotors key n seed t1 t3 = .ok r ∧ Onto r.1 ∧ Inv 0 r.2 := by
  induction n generalizing seed t1 t3 with
  | zero => exact ⟨_, rfl, h1, h3⟩
  | succ k ih =>
    rw [rotors]
    have hs := swap_onto t1 k ((BitVec.srem (5 * seed + cb key ((255 - k) % 13)) 65521 &&& 255).toNat % (k + 1)) (by omega)
      (Nat.lt_of_lt_of_le (Nat.mod_lt _ (by omega)) hn) h1
    by_cases hk : t3.getD k 0 ≠ 0
    · rw [if_pos hk]
      exact ih (by omega) _ _ _ hs (inv_skip k t3 h3 hk)
    · rw [if_neg hk]
      have h0 : t3.getD k 0 = 0 := Decidable.not_not.mp hk
      have e := h3.even
      rw [zeros, if_pos h0] at e
      obtain ⟨z, hz, ez⟩ := zeros_pos t3 k (by omega)
      rw [if_neg (by omega)]
      obtain ⟨j, ej, hj, hj0⟩ := search_found t3 k (((BitVec.srem (5 * seed + cb key ((255 - k) % 13)) 65521 >>> 8) &&& 255).toNat % k) z
        (Nat.mod_lt _ (by omega)) (by omega) hz ez
      rw [ej]
      exact ih (by omega) _ _ _ hs (inv_set k j t3 h3 (by omega) h0 hj hj0)

theorem onto_id : Onto ((List.range 256).map (BitVec.ofNat 8)) := by
  refine ⟨by rw [List.length_map, List.length_range], fun b => ⟨b.toNat, b.isLt, ?_⟩⟩
  have : b.toNat < 256 := b.isLt
  rw [List.getD_eq_getElem?_getD, List.getElem?_map, List.getElem?_range this]
  exact BitVec.eq_of_toNat_eq (toNat_ofNat8 _ this)
theorem zeros_replicate (m n : Nat) : zeros (List.replicate m 0) n = n := by
  induction n with
  | zero => rfl
  | succ n ih =>
    rw [zeros, ih, if_pos]
    rw [List.getD_eq_getElem?_getD, List.getElem?_replicate]
    split <;> rfl
theorem inv_init : Inv 256 (List.replicate 256 0) := by
  refine Inv.mk List.length_replicate (fun x hx h => ?_) ?_
  rcases h with h | h
  · omega
  · exfalso
    apply h
    rw [List.getD_eq_getElem?_getD, List.getElem?_replicate, if_pos hx]
    rfl
  · rw [zeros_replicate 256 256]

/-- The rotors of a cipher: `t2` is the inverse of `t1`, and `t3` exchanges the bytes in pairs. -/
structure Rotors (t1 t2 t3 : Byte → Byte) : Prop where
  left : ∀ x, t2 (t1 x) = x
  right : ∀ x, t1 (t2 x) = x
  twice : ∀ x, t3 (t3 x) = x
  moves : ∀ x, t3 x ≠ x

theorem newCipher_ok (key : Bytes) (seed : BitVec 32) (h : key.length = 13) :
    ∃ s, newCipher key seed = .ok s ∧ Rotors (at_ s.t1) (at_ s.t2) (at_ s.t3) ∧ s.n1 = 0 ∧ s.n2 = 0 ∧ s.nr2 = 0 := by
  obtain ⟨r, e, h1, h3⟩ := rotors_ok key 256 (Nat.le_refl _) (seed0 key seed) _ _ onto_id inv_init
  have hr : Rotors (at_ r.1) (at_ (invert r.1)) (at_ r.2) := by
    constructor
    · exact inv_left r.1 h1
    · exact inv_right r.1 h1
    · intro x
      exact BitVec.eq_of_toNat_eq (h3.pair x.toNat x.isLt (.inl (Nat.zero_le _))).1
    · intro x hc
      exact (h3.pair x.toNat x.isLt (.inl (Nat.zero_le _))).2.1 (congrArg BitVec.toNat hc)
  have hn : newCipher key seed = .ok ⟨r.1, invert r.1, r.2, 0, 0, 0⟩ := by
    unfold newCipher
    rw [if_pos h, e]
    rfl
  generalize invert r.1 = t2 at hr hn
  exact ⟨⟨r.1, t2, r.2, 0, 0, 0⟩, hn, hr, rfl, rfl, rfl⟩

/-! Histories -/

/-- Specification. `f p b` stands for the byte that replaces `b` at position `p` of the stream. -/
def mapFrom (f : Nat → Byte → Byte) (p : Nat) (l : Bytes) : Bytes := l.mapIdx fun i b => f (p + i) b

/-- Specification. After every history of successful calls, the outputs joined together are the inputs joined together with the byte at each position substituted
by `f`, wherever the data was cut, and the next call, for every memory and every pair of buffers, substitutes its input from the current position on into dst and
changes no other byte of memory, or panics, exactly when dst is too short or the buffers overlap partially. -/
def IsSubst {σ : Type} (call : σ → Mem → Slice → Slice → Res (Mem × σ)) (x : σ) (f : Nat → Byte → Byte) : Prop :=
  ∀ ins outs y, Calls Any call x ins outs y →
    outs.flatten = mapFrom f 0 ins.flatten ∧
    ∀ m dst src,
      (src.len ≤ dst.len ∧ NoPartialOverlap dst src →
        ∃ y', call y m dst src = .ok (m.write dst.ptr (mapFrom f ins.flatten.length (m.read src.ptr src.len)), y')) ∧
      (¬ (src.len ≤ dst.len ∧ NoPartialOverlap dst src) → call y m dst src = .panic)

/-- Specification. The substitution at position `p`: the first rotor is turned by one at every byte, the third by one at every 256 bytes. -/
def subst (t1 t2 t3 : Byte → Byte) (p : Nat) (x : Byte) : Byte :=
  let a := BitVec.ofNat 8 p
  let b := BitVec.ofNat 8 (p / 256)
  t2 (t3 (t1 (x + a) + b) - b) - a

theorem mapFrom_cons (f : Nat → Byte → Byte) (p : Nat) (b : Byte) (l : Bytes) : mapFrom f p (b :: l) = f p b :: mapFrom f (p + 1) l := by
  unfold mapFrom
  rw [List.mapIdx_cons]
  congr 2
  funext i c
  rw [show p + (i + 1) = p + 1 + i from by omega]
theorem mapFrom_length (f : Nat → Byte → Byte) (p : Nat) (l : Bytes) : (mapFrom f p l).length = l.length := by simp [mapFrom]
theorem mapFrom_append (f : Nat → Byte → Byte) (p : Nat) (a b : Bytes) : mapFrom f p (a ++ b) = mapFrom f p a ++ mapFrom f (p + a.length) b := by
  unfold mapFrom
  rw [List.mapIdx_append]
  congr 2
  funext i c
  rw [show p + (i + a.length) = p + a.length + i from by omega]

/-- The state at position `p`. -/
def At (s0 s : St) (p : Nat) : Prop :=
  s.t1 = s0.t1 ∧ s.t2 = s0.t2 ∧ s.t3 = s0.t3 ∧ s.n1 = p % 256 ∧ s.n2 = p / 256 % 256 ∧ s.nr2 = s.n2

theorem at_next (s0 s : St) (p : Nat) (h : At s0 s p) : At s0 (next s) (p + 1) := by
  obtain ⟨a, b, c, d, e, f⟩ := h
  unfold next
  by_cases h1 : s.n1 + 1 = 256
  · rw [if_pos h1]
    by_cases h2 : s.n2 + 1 = 256
    · rw [if_pos h2]
      exact ⟨a, b, c, by show 0 = _; omega, by show 0 = _; omega, rfl⟩
    · rw [if_neg h2]
      exact ⟨a, b, c, by show 0 = _; omega, by show s.n2 + 1 = _; omega, rfl⟩
  · rw [if_neg h1]
    exact ⟨a, b, c, by show s.n1 + 1 = _; omega, by show s.n2 = _; omega, f⟩

theorem at_sub (s0 s : St) (p : Nat) (h : At s0 s p) (x : Byte) : sub s x = subst (at_ s0.t1) (at_ s0.t2) (at_ s0.t3) p x := by
  obtain ⟨a, b, c, d, e, f⟩ := h
  have h1 : BitVec.ofNat 8 (p % 256) = BitVec.ofNat 8 p := BitVec.eq_of_toNat_eq (by simp)
  have h2 : BitVec.ofNat 8 (p / 256 % 256) = BitVec.ofNat 8 (p / 256) := BitVec.eq_of_toNat_eq (by simp)
  unfold sub subst
  rw [a, b, c, f, d, e, h1, h2]

theorem crypt_eq (s0 : St) (l : Bytes) (s : St) (p : Nat) (h : At s0 s p) :
    (crypt s l).1 = mapFrom (subst (at_ s0.t1) (at_ s0.t2) (at_ s0.t3)) p l ∧ At s0 (crypt s l).2 (p + l.length) := by
  induction l generalizing s p with
  | nil => exact ⟨rfl, h⟩
  | cons b l ih =>
    obtain ⟨i1, i2⟩ := ih (next s) (p + 1) (at_next s0 s p h)
    rw [crypt, mapFrom_cons, at_sub s0 s p h]
    refine ⟨by rw [i1], ?_⟩
    rw [List.length_cons, show p + (l.length + 1) = p + 1 + l.length from by omega]
    exact i2

theorem inexact_iff (dst src : Slice) (_h : src.len ≤ dst.len) : inexactOverlap ⟨dst.ptr, src.len, dst.cap⟩ src = true ↔ ¬ NoPartialOverlap dst src := by
  simp [NoPartialOverlap, inexactOverlap, anyOverlap, and_assoc]

theorem isSubst_of (s : St) (h : At s s 0) : IsSubst call s (subst (at_ s.t1) (at_ s.t2) (at_ s.t3)) := by
  have hok : ∀ st p m dst src, At s st p → src.len ≤ dst.len → NoPartialOverlap dst src →
      ∃ st', call st m dst src = .ok (m.write dst.ptr (mapFrom (subst (at_ s.t1) (at_ s.t2) (at_ s.t3)) p (m.read src.ptr src.len)), st') ∧ At s st' (p + src.len) := by
    intro st p m dst src hp h1 h2
    obtain ⟨c1, c2⟩ := crypt_eq s (m.read src.ptr src.len) st p hp
    rw [Mem.read_length] at c2
    refine ⟨(crypt st (m.read src.ptr src.len)).2, ?_, c2⟩
    unfold call
    rw [if_neg (by omega), if_neg (fun hc => (inexact_iff dst src h1).mp hc h2), ← c1]
  have hbad : ∀ st m dst src, ¬ (src.len ≤ dst.len ∧ NoPartialOverlap dst src) → call st m dst src = .panic := by
    intro st m dst src hn
    unfold call
    by_cases h1 : dst.len < src.len
    · rw [if_pos h1]
    · rw [if_neg h1, if_pos ((inexact_iff dst src (by omega)).mpr (fun h2 => hn ⟨by omega, h2⟩))]
  have key : ∀ st ins outs y, Calls Any call st ins outs y → ∀ p, At s st p →
      outs.flatten = mapFrom (subst (at_ s.t1) (at_ s.t2) (at_ s.t3)) p ins.flatten ∧ At s y (p + ins.flatten.length) := by
    intro st ins outs y hc
    induction hc with
    | nil st => intro p hp; exact ⟨rfl, hp⟩
    | @cons st st' st'' m m' dst src ins outs ha h t ih =>
      intro p hp
      have hg : src.len ≤ dst.len ∧ NoPartialOverlap dst src := by
        by_contra hn
        rw [hbad _ _ _ _ hn] at h; cases h
      obtain ⟨s1, e1, e2⟩ := hok st p m dst src hp hg.1 hg.2
      rw [e1] at h
      obtain ⟨rfl, rfl⟩ := Prod.mk.inj (Res.ok.inj h)
      obtain ⟨f1, f2⟩ := ih _ e2
      refine ⟨?_, ?_⟩
      · rw [List.flatten_cons, List.flatten_cons, f1, Mem.read_write_self' _ _ _ _ (by rw [mapFrom_length, Mem.read_length]), mapFrom_append, Mem.read_length]
      · rw [List.flatten_cons, List.length_append, Mem.read_length, ← Nat.add_assoc]; exact f2
  intro ins outs y hc
  obtain ⟨k1, k2⟩ := key s ins outs y hc 0 h
  refine ⟨k1, fun m dst src => ⟨fun hg => ?_, fun hn => hbad _ _ _ _ hn⟩⟩
  obtain ⟨s1, e1, _⟩ := hok y _ m dst src k2 hg.1 hg.2
  rw [Nat.zero_add] at e1
  exact ⟨s1, e1⟩

theorem subst_twice {t1 t2 t3 : Byte → Byte} (h : Rotors t1 t2 t3) (p : Nat) (x : Byte) : subst t1 t2 t3 p (subst t1 t2 t3 p x) = x := by
  simp only [subst]
  rw [BitVec.sub_add_cancel, h.right, BitVec.sub_add_cancel, h.twice, BitVec.add_sub_cancel, h.left, BitVec.add_sub_cancel]
theorem subst_moves {t1 t2 t3 : Byte → Byte} (h : Rotors t1 t2 t3) (p : Nat) (x : Byte) : subst t1 t2 t3 p x ≠ x := by
  intro hc
  unfold subst at hc
  have h1 := congrArg (fun y => t1 (y + BitVec.ofNat 8 p) + BitVec.ofNat 8 (p / 256)) hc
  rw [BitVec.sub_add_cancel, h.right, BitVec.sub_add_cancel] at h1
  exact h.moves _ h1

theorem mapFrom_twice (f : Nat → Byte → Byte) (h : ∀ p x, f p (f p x) = x) (p : Nat) (l : Bytes) : mapFrom f p (mapFrom f p l) = l := by
  induction l generalizing p with
  | nil => rfl
  | cons b l ih => rw [mapFrom_cons, mapFrom_cons, h, ih]

end Verif.Strm.Enigma
