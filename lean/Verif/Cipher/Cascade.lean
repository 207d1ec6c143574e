import Verif.Cipher.Common2
/-
Model of cipher/cascade, with tool/math/lcm and tool/math/gcd.
-/
namespace Verif.Cipher.Cascade

/-- `gcd.Iterative` (tool/math/gcd/gcditerative.go:4-9), for numbers that are not negative. -/
def gcdIter (a b : Nat) : Nat := if b = 0 then a else gcdIter b (a % b)
termination_by b
decreasing_by exact Nat.mod_lt _ (by omega)

/-- `lcm.Lcm` (tool/math/lcm/lcm.go:10-12). Go divides as float64: exact as long as the product is at most 2^53, which block sizes are far from. -/
def lcm (a b : Nat) : Nat := a * b / gcdIter a b

/-- The loops of `encrypt` and `decrypt` (cipher/cascade/cascade.go:78-106): `f` on `n` blocks of `bs` bytes at `d` and `s`. -/
def loop (f : Mem → Slice → Slice → Res Mem) (bs : Nat) : Nat → Mem → Nat → Nat → Res Mem
  | 0, m, _, _ => .ok m
  | n + 1, m, d, s => (f m ⟨d, bs, bs⟩ ⟨s, bs, bs⟩).bind fun m => loop f bs n m (d + bs) (s + bs)

/-- `encrypt` (cipher/cascade/cascade.go:78-92): the first cipher from `src` to `dst`, the second in place. -/
def encrypt (c1 c2 : Obj) (bs : Nat) (m : Mem) (d s : Nat) : Res Mem :=
  (loop c1.enc c1.bs (bs / c1.bs) m d s).bind fun m => loop c2.enc c2.bs (bs / c2.bs) m d d
/-- `decrypt` (cipher/cascade/cascade.go:94-108). -/
def decrypt (c1 c2 : Obj) (bs : Nat) (m : Mem) (d s : Nat) : Res Mem :=
  (loop c2.dec c2.bs (bs / c2.bs) m d s).bind fun m => loop c1.dec c1.bs (bs / c1.bs) m d d

/-- `NewCipher`, `Encrypt` and `Decrypt` (cipher/cascade/cascade.go:18-76), for ciphers with positive block sizes. -/
def newCipher (c1 c2 : Obj) : Res Obj :=
  let bs := lcm c1.bs c2.bs
  if bs % c1.bs = 0 ∧ bs % c2.bs = 0 then .ok ⟨bs, guarded bs (encrypt c1 c2 bs), guarded bs (decrypt c1 c2 bs)⟩ else .err

/-! Specification -/

/-- `F` on each of `n` blocks of `bs` bytes. -/
def ecb (F : Bytes → Bytes) (bs : Nat) : Nat → Bytes → Bytes
  | 0, _ => []
  | n + 1, b => F (b.take bs) ++ ecb F bs n (b.drop bs)

/-! Proofs -/

theorem gcdIter_eq (a b : Nat) : gcdIter a b = Nat.gcd a b := by
  induction b using Nat.strongRecOn generalizing a with
  | ind b ih =>
    rw [gcdIter]
    split
    · next h => subst h; rw [Nat.gcd_zero_right]
    · next h =>
      rw [ih _ (Nat.mod_lt _ (by omega)), Nat.gcd_comm a b, Nat.gcd_rec b a, Nat.gcd_comm]
theorem lcm_eq (a b : Nat) : lcm a b = Nat.lcm a b := by
  unfold lcm Nat.lcm
  rw [gcdIter_eq]

theorem ecb_length (F : Bytes → Bytes) (bs : Nat) (hF : ∀ b, b.length = bs → (F b).length = bs) (n : Nat) (b : Bytes) (h : b.length = n * bs) :
    (ecb F bs n b).length = n * bs := by
  induction n generalizing b with
  | zero => simp [ecb]
  | succ n ih =>
    rw [Nat.succ_mul] at h ⊢
    rw [ecb, List.length_append, hF _ (by rw [List.length_take]; omega), ih _ (by rw [List.length_drop]; omega)]
    omega

theorem ecb_inv (F G : Bytes → Bytes) (bs : Nat) (hF : ∀ b, b.length = bs → (F b).length = bs) (hG : ∀ b, b.length = bs → G (F b) = b) (n : Nat) (b : Bytes)
    (h : b.length = n * bs) : ecb G bs n (ecb F bs n b) = b := by
  induction n generalizing b with
  | zero =>
    have : b = [] := List.length_eq_zero_iff.mp (by omega)
    rw [this]
    rfl
  | succ n ih =>
    rw [Nat.succ_mul] at h
    have l1 : (b.take bs).length = bs := by rw [List.length_take]; omega
    have l2 := hF _ l1
    rw [ecb, ecb, List.take_append_of_le_length (by omega), List.take_of_length_le (by omega), hG _ l1]
    rw [List.drop_append_of_le_length (by omega), List.drop_of_length_le (by omega), List.nil_append, ih _ (by rw [List.length_drop]; omega), List.take_append_drop]

theorem loop_eq (f : Mem → Slice → Slice → Res Mem) (F : Bytes → Bytes) (bs : Nat) (hF : ∀ b, b.length = bs → (F b).length = bs)
    (hf : ∀ m dst src, f m dst src = if src.len < bs ∨ dst.len < bs ∨ inexactOverlap { dst with len := bs } { src with len := bs } = true then .panic
      else .ok (m.write dst.ptr (F (m.read src.ptr bs)))) (n : Nat) (m : Mem) (d s : Nat) (h : d = s ∨ d + n * bs ≤ s ∨ s + n * bs ≤ d) :
    loop f bs n m d s = .ok (m.write d (ecb F bs n (m.read s (n * bs)))) := by
  induction n generalizing m d s with
  | zero => simp [loop, ecb, Mem.write_nil]
  | succ n ih =>
    rw [Nat.succ_mul] at h
    have ho : inexactOverlap ⟨d, bs, bs⟩ ⟨s, bs, bs⟩ = false := by
      unfold inexactOverlap anyOverlap
      simp
      omega
    have e : f m ⟨d, bs, bs⟩ ⟨s, bs, bs⟩ = .ok (m.write d (F (m.read s bs))) := by
      rw [hf, if_neg]
      rw [ho]
      simp
    have l1 : (F (m.read s bs)).length = bs := hF _ (by simp)
    rw [loop, e]
    show loop f bs n (m.write d (F (m.read s bs))) (d + bs) (s + bs) = _
    rw [ih _ _ _ (by omega), ecb, Mem.read_write_disjoint _ _ _ _ _ (by omega)]
    have t1 : (m.read s ((n + 1) * bs)).take bs = m.read s bs := by
      rw [Mem.read_take, Nat.succ_mul, Nat.min_eq_left (by omega)]
    have t2 : (m.read s ((n + 1) * bs)).drop bs = m.read (s + bs) (n * bs) := by
      rw [Mem.read_drop, Nat.succ_mul, Nat.add_sub_cancel]
    rw [t1, t2, Mem.write_append, l1]

theorem apart {d s n c c' : Nat} (h : inexactOverlap ⟨d, n, c⟩ ⟨s, n, c'⟩ = false) : d = s ∨ d + n ≤ s ∨ s + n ≤ d := by
  unfold inexactOverlap anyOverlap at h
  by_cases hn : n = 0
  · omega
  · by_cases he : d = s
    · exact .inl he
    · simp [hn, he] at h
      omega

/-- One direction: two loops behind the checks. -/
theorem two_loops (f g : Mem → Slice → Slice → Res Mem) (F G : Bytes → Bytes) (b1 b2 N n1 n2 : Nat) (e1 : n1 * b1 = N) (e2 : n2 * b2 = N)
    (hF : ∀ b, b.length = b1 → (F b).length = b1) (hG : ∀ b, b.length = b2 → (G b).length = b2)
    (hf : ∀ m dst src, f m dst src = if src.len < b1 ∨ dst.len < b1 ∨ inexactOverlap { dst with len := b1 } { src with len := b1 } = true then .panic
      else .ok (m.write dst.ptr (F (m.read src.ptr b1))))
    (hg : ∀ m dst src, g m dst src = if src.len < b2 ∨ dst.len < b2 ∨ inexactOverlap { dst with len := b2 } { src with len := b2 } = true then .panic
      else .ok (m.write dst.ptr (G (m.read src.ptr b2)))) (m : Mem) (dst src : Slice) :
    guarded N (fun m d s => (loop f b1 n1 m d s).bind fun m => loop g b2 n2 m d d) m dst src =
      if src.len < N ∨ dst.len < N ∨ inexactOverlap { dst with len := N } { src with len := N } = true then .panic
      else .ok (m.write dst.ptr (ecb G b2 n2 (ecb F b1 n1 (m.read src.ptr N)))) := by
  unfold guarded
  by_cases h1 : src.len < N
  · simp [h1]
  · by_cases h2 : dst.len < N
    · simp [h1, h2]
    · by_cases h3 : inexactOverlap { dst with len := N } { src with len := N } = true
      · simp [h1, h2, h3]
      · simp only [h1, h2, h3, if_false]
        have ha := apart (Bool.not_eq_true _ ▸ h3)
        rw [loop_eq f F b1 hF hf n1 m dst.ptr src.ptr (by rw [e1]; exact ha)]
        show loop g b2 n2 _ dst.ptr dst.ptr = _
        rw [loop_eq g G b2 hG hg n2 _ _ _ (.inl rfl), e1, e2]
        have l1 := ecb_length F b1 hF n1 (m.read src.ptr N) (by simp [e1])
        rw [Mem.read_write_self' _ _ _ _ (l1.trans e1), Mem.write_write_same _ _ _ _ (by
          rw [l1, ecb_length G b2 hG n2 _ (by rw [l1, e1, e2]), e1, e2])]
        simp

theorem isBlock (c1 c2 : Obj) (E1 D1 E2 D2 : Bytes → Bytes) (i1 : IsBlock c1.bs c1.enc c1.dec E1 D1)
    (i2 : IsBlock c2.bs c2.enc c2.dec E2 D2) : ∃ c, newCipher c1 c2 = .ok c ∧ c.bs = Nat.lcm c1.bs c2.bs ∧
      IsBlock c.bs c.enc c.dec (fun b => ecb E2 c2.bs (c.bs / c2.bs) (ecb E1 c1.bs (c.bs / c1.bs) b))
        (fun b => ecb D1 c1.bs (c.bs / c1.bs) (ecb D2 c2.bs (c.bs / c2.bs) b)) := by
  unfold newCipher
  rw [lcm_eq]
  generalize hN : Nat.lcm c1.bs c2.bs = N
  have d1 : c1.bs ∣ N := hN ▸ Nat.dvd_lcm_left _ _
  have d2 : c2.bs ∣ N := hN ▸ Nat.dvd_lcm_right _ _
  have e1 : N / c1.bs * c1.bs = N := Nat.div_mul_cancel d1
  have e2 : N / c2.bs * c2.bs = N := Nat.div_mul_cancel d2
  simp only
  rw [if_pos ⟨Nat.mod_eq_zero_of_dvd d1, Nat.mod_eq_zero_of_dvd d2⟩]
  refine ⟨_, rfl, rfl, ?_⟩
  refine { lenE := fun b hb => ?_, lenD := fun b hb => ?_, DE := fun b hb => ?_, ED := fun b hb => ?_, enc_eq := fun m dst src => ?_, dec_eq := fun m dst src => ?_ }
  · simp only at hb ⊢
    rw [ecb_length E2 _ i2.lenE _ _ (by rw [ecb_length E1 _ i1.lenE _ _ (by omega)]; omega)]
    exact e2
  · simp only at hb ⊢
    rw [ecb_length D1 _ i1.lenD _ _ (by rw [ecb_length D2 _ i2.lenD _ _ (by omega)]; omega)]
    exact e1
  · simp only at hb ⊢
    rw [ecb_inv E2 D2 _ i2.lenE i2.DE _ _ (by rw [ecb_length E1 _ i1.lenE _ _ (by omega)]; omega), ecb_inv E1 D1 _ i1.lenE i1.DE _ _ (by omega)]
  · simp only at hb ⊢
    rw [ecb_inv D1 E1 _ i1.lenD i1.ED _ _ (by rw [ecb_length D2 _ i2.lenD _ _ (by omega)]; omega), ecb_inv D2 E2 _ i2.lenD i2.ED _ _ (by omega)]
  · exact two_loops _ _ E1 E2 _ _ N _ _ e1 e2 i1.lenE i2.lenE i1.enc_eq i2.enc_eq m dst src
  · exact two_loops _ _ D2 D1 _ _ N _ _ e2 e1 i2.lenD i1.lenD i2.dec_eq i1.dec_eq m dst src

end Verif.Cipher.Cascade
