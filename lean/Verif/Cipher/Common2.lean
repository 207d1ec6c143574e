import Verif.Cipher.Linear
/-
More common ground for the block cipher packages: methods without the overlap check, methods that convert the whole of `src`, additive functions on words.
-/
namespace Verif.Cipher

/-- `E` and `D` are functions on blocks of `bs` bytes, inverse to each other. -/
structure BlockFn (bs : Nat) (E D : Bytes → Bytes) : Prop where
  lenE : ∀ b, b.length = bs → (E b).length = bs
  lenD : ∀ b, b.length = bs → (D b).length = bs
  DE : ∀ b, b.length = bs → D (E b) = b
  ED : ∀ b, b.length = bs → E (D b) = b

/-- One direction is enough. -/
theorem blockFn_left (bs : Nat) (E D : Bytes → Bytes) (lenE : ∀ b, b.length = bs → (E b).length = bs) (lenD : ∀ b, b.length = bs → (D b).length = bs)
    (DE : ∀ b, b.length = bs → D (E b) = b) : BlockFn bs E D := ⟨lenE, lenD, DE, right_of_left bs E D lenE lenD DE⟩

theorem blockFn_of {S : Type} (bs : Nat) (ld : Bytes → S) (st : S → Bytes) (f g : S → S) (len : ∀ s, (st s).length = bs)
    (h1 : ∀ s, ld (st s) = s) (h2 : ∀ b, b.length = bs → st (ld b) = b) (gf : ∀ s, g (f s) = s) :
    BlockFn bs (fun b => st (f (ld b))) (fun b => st (g (ld b))) :=
  blockFn_left bs _ _ (fun _ _ => len _) (fun _ _ => len _) (fun b hb => by simp only [h1, gf, h2 b hb])

theorem blockFn_4LE {w sz : Nat} (bs : Nat) (hw : w = 8 * sz) (hb : bs = 4 * sz) {f g} (gf : ∀ s, g (f s) = s) : BlockFn bs (enc4LE w sz f) (enc4LE w sz g) :=
  blockFn_of bs (ld4LE w sz) (st4LE sz) f g (by simp [hb]) (ld4LE_st hw) (fun b h => st4LE_ld hw b (by omega)) gf
theorem blockFn_4BE {w sz : Nat} (bs : Nat) (hw : w = 8 * sz) (hb : bs = 4 * sz) {f g} (gf : ∀ s, g (f s) = s) : BlockFn bs (enc4BE w sz f) (enc4BE w sz g) :=
  blockFn_of bs (ld4BE w sz) (st4BE sz) f g (by simp [hb]) (ld4BE_st hw) (fun b h => st4BE_ld hw b (by omega)) gf
theorem blockFn_2LE {w sz : Nat} (bs : Nat) (hw : w = 8 * sz) (hb : bs = 2 * sz) {f g} (gf : ∀ s, g (f s) = s) : BlockFn bs (enc2LE w sz f) (enc2LE w sz g) :=
  blockFn_of bs (ld2LE w sz) (st2LE sz) f g (by simp [hb]) (ld2LE_st hw) (fun b h => st2LE_ld hw b (by omega)) gf
theorem blockFn_2BE {w sz : Nat} (bs : Nat) (hw : w = 8 * sz) (hb : bs = 2 * sz) {f g} (gf : ∀ s, g (f s) = s) : BlockFn bs (enc2BE w sz f) (enc2BE w sz g) :=
  blockFn_of bs (ld2BE w sz) (st2BE sz) f g (by simp [hb]) (ld2BE_st hw) (fun b h => st2BE_ld hw b (by omega)) gf

/-- One word. -/
def ld1BE (w sz : Nat) (b : Bytes) : BitVec w := (ldBE w sz 1 b).getD 0 0
def st1BE {w : Nat} (sz : Nat) (x : BitVec w) : Bytes := stBE sz [x]
def enc1BE (w sz : Nat) (f : BitVec w → BitVec w) (b : Bytes) : Bytes := st1BE sz (f (ld1BE w sz b))
theorem blockFn_1BE {w sz : Nat} (bs : Nat) (hw : w = 8 * sz) (hb : bs = sz) {f g} (gf : ∀ s, g (f s) = s) : BlockFn bs (enc1BE w sz f) (enc1BE w sz g) :=
  blockFn_of bs (ld1BE w sz) (st1BE sz) f g (fun s => by simp [st1BE, hb])
    (fun s => by
      have := ldBE_stBE hw [s]
      simp only [List.length_cons, List.length_nil] at this
      unfold ld1BE st1BE
      rw [this]
      rfl)
    (fun b h => by
      have := stBE_ldBE hw 1 b (by omega)
      unfold ld1BE st1BE
      rw [show [(ldBE w sz 1 b).getD 0 0] = ldBE w sz 1 b from rfl]
      exact this) gf

/-- A list of `n` words. -/
def encNLE (w sz n : Nat) (f : List (BitVec w) → List (BitVec w)) (b : Bytes) : Bytes := stLE sz (f (ldLE w sz n b))
def encNBE (w sz n : Nat) (f : List (BitVec w) → List (BitVec w)) (b : Bytes) : Bytes := stBE sz (f (ldBE w sz n b))
theorem blockFn_NLE {w sz n : Nat} (bs : Nat) (hw : w = 8 * sz) (hb : bs = n * sz) {f g : List (BitVec w) → List (BitVec w)}
    (lf : ∀ s, s.length = n → (f s).length = n) (lg : ∀ s, s.length = n → (g s).length = n)
    (gf : ∀ s, s.length = n → g (f s) = s) : BlockFn bs (encNLE w sz n f) (encNLE w sz n g) := by
  refine blockFn_left bs _ _ (fun b h => ?_) (fun b h => ?_) fun b h => ?_
  · unfold encNLE; rw [stLE_length, lf _ (by simp), hb]
  · unfold encNLE; rw [stLE_length, lg _ (by simp), hb]
  · unfold encNLE
    have := ldLE_stLE hw (f (ldLE w sz n b))
    rw [lf _ (by simp)] at this
    rw [this, gf _ (by simp), stLE_ldLE hw n b (by omega)]
theorem blockFn_NBE {w sz n : Nat} (bs : Nat) (hw : w = 8 * sz) (hb : bs = n * sz) {f g : List (BitVec w) → List (BitVec w)}
    (lf : ∀ s, s.length = n → (f s).length = n) (lg : ∀ s, s.length = n → (g s).length = n)
    (gf : ∀ s, s.length = n → g (f s) = s) : BlockFn bs (encNBE w sz n f) (encNBE w sz n g) := by
  refine blockFn_left bs _ _ (fun b h => ?_) (fun b h => ?_) fun b h => ?_
  · unfold encNBE; rw [stBE_length, lf _ (by simp), hb]
  · unfold encNBE; rw [stBE_length, lg _ (by simp), hb]
  · unfold encNBE
    have := ldBE_stBE hw (f (ldBE w sz n b))
    rw [lf _ (by simp)] at this
    rw [this, gf _ (by simp), stBE_ldBE hw n b (by omega)]

theorem BlockFn.isBlock {bs : Nat} {E D : Bytes → Bytes} (h : BlockFn bs E D) : IsBlock bs (guarded bs (whole bs E)) (guarded bs (whole bs D)) E D :=
  isBlock_bytes bs E D h.lenE h.lenD h.DE h.ED

theorem implements_fn {bs : Nat} {ok : Nat → Prop} [DecidablePred ok] {f g : Bytes → Bytes → Bytes}
    (h : ∀ key : Bytes, ok key.length → BlockFn bs (f key) (g key)) :
    Implements (fun key => if ok key.length then .ok ⟨bs, guarded bs (whole bs (f key)), guarded bs (whole bs (g key))⟩ else .err) ok bs :=
  implements_of fun key hk => (h key hk).isBlock

/-! Methods without the overlap check -/

/-- Encrypt or Decrypt of the packages that do not check for overlap: reading past `src` or writing past `dst` panics; the block is read before the result is
written. -/
def unchecked (bs : Nat) (f : Bytes → Bytes) (m : Mem) (dst src : Slice) : Res Mem :=
  if src.len < bs then .panic else if dst.len < bs then .panic else whole bs f m dst.ptr src.ptr

/-- Like `Implements` for packages without the overlap check: also partly overlapping blocks are processed, and correctly: the result is that of the bytes
`src` had before the call. -/
def ImplementsU (new : Bytes → Res Obj) (keyOK : Nat → Prop) (bs : Nat) : Prop :=
  ∀ key, (keyOK key.length → ∃ c, new key = .ok c ∧ c.bs = bs ∧ ∃ E D, BlockFn bs E D ∧
      ∀ m dst src,
        (c.enc m dst src = if src.len < bs ∨ dst.len < bs then .panic else .ok (m.write dst.ptr (E (m.read src.ptr bs)))) ∧
        (c.dec m dst src = if src.len < bs ∨ dst.len < bs then .panic else .ok (m.write dst.ptr (D (m.read src.ptr bs))))) ∧
    (¬ keyOK key.length → new key = .err)

theorem unchecked_eq (bs : Nat) (f : Bytes → Bytes) (m : Mem) (dst src : Slice) :
    unchecked bs f m dst src = if src.len < bs ∨ dst.len < bs then .panic else .ok (m.write dst.ptr (f (m.read src.ptr bs))) := by
  unfold unchecked whole
  by_cases h1 : src.len < bs
  · rw [if_pos h1, if_pos (.inl h1)]
  · by_cases h2 : dst.len < bs
    · rw [if_neg h1, if_pos h2, if_pos (.inr h2)]
    · rw [if_neg h1, if_neg h2, if_neg (by omega)]

theorem implementsU_of {bs : Nat} {ok : Nat → Prop} [DecidablePred ok] {f g : Bytes → Bytes → Bytes}
    (h : ∀ key : Bytes, ok key.length → BlockFn bs (f key) (g key)) :
    ImplementsU (fun key => if ok key.length then .ok ⟨bs, unchecked bs (f key), unchecked bs (g key)⟩ else .err) ok bs :=
  fun key => ⟨fun hk => ⟨_, if_pos hk, rfl, f key, g key, h key hk, fun m dst src => ⟨unchecked_eq .., unchecked_eq ..⟩⟩, fun hk => if_neg hk⟩

/-! Methods that convert all of `src` -/

/-- Encrypt or Decrypt of the packages that convert all whole words (of `ws` bytes) of `src`, make an output of as many words, of which those after the block
stay zero, and copy as much of it to `dst` as fits (e.g. cipher/multi2/multi2.go:60-66). -/
def spill (ws bs : Nat) (f : Bytes → Bytes) (m : Mem) (dst src : Slice) : Res Mem :=
  if src.len < bs then .panic
  else if dst.len < bs then .panic
  else if inexactOverlap { dst with len := bs } { src with len := bs } then .panic
  else .ok (m.write dst.ptr ((f (m.read src.ptr bs) ++ List.replicate (ws * (src.len / ws) - bs) 0).take dst.len))

/-- What those packages do, exactly: as `Implements`, but the block is followed by zeros, as many as `src` has further whole words and as `dst` has room for. -/
def ImplementsSpill (new : Bytes → Res Obj) (keyOK : Nat → Prop) (bs ws : Nat) : Prop :=
  ∀ key, (keyOK key.length → ∃ c, new key = .ok c ∧ c.bs = bs ∧ ∃ E D, BlockFn bs E D ∧
      ∀ m dst src, ((src.len < bs ∨ dst.len < bs ∨ inexactOverlap { dst with len := bs } { src with len := bs } = true) → c.enc m dst src = .panic ∧ c.dec m dst src = .panic) ∧
        (¬ (src.len < bs ∨ dst.len < bs ∨ inexactOverlap { dst with len := bs } { src with len := bs } = true) →
          c.enc m dst src = .ok (m.write dst.ptr ((E (m.read src.ptr bs) ++ List.replicate (ws * (src.len / ws) - bs) 0).take dst.len)) ∧
          c.dec m dst src = .ok (m.write dst.ptr ((D (m.read src.ptr bs) ++ List.replicate (ws * (src.len / ws) - bs) 0).take dst.len)))) ∧
    (¬ keyOK key.length → new key = .err)

/-- `Implements` restricted to the pairs of slices `dst`, `src` with `P dst src`. -/
def ImplementsFor (P : Slice → Slice → Prop) (new : Bytes → Res Obj) (keyOK : Nat → Prop) (bs : Nat) : Prop :=
  ∀ key, (keyOK key.length → ∃ c, new key = .ok c ∧ c.bs = bs ∧ ∃ E D, BlockFn bs E D ∧ ∀ m dst src, P dst src →
      (c.enc m dst src = if src.len < bs ∨ dst.len < bs ∨ inexactOverlap { dst with len := bs } { src with len := bs } = true then .panic
        else .ok (m.write dst.ptr (E (m.read src.ptr bs)))) ∧
      (c.dec m dst src = if src.len < bs ∨ dst.len < bs ∨ inexactOverlap { dst with len := bs } { src with len := bs } = true then .panic
        else .ok (m.write dst.ptr (D (m.read src.ptr bs))))) ∧
    (¬ keyOK key.length → new key = .err)

theorem spill_eq (ws bs : Nat) (f : Bytes → Bytes) (m : Mem) (dst src : Slice) : spill ws bs f m dst src =
    if src.len < bs ∨ dst.len < bs ∨ inexactOverlap { dst with len := bs } { src with len := bs } = true then .panic
    else .ok (m.write dst.ptr ((f (m.read src.ptr bs) ++ List.replicate (ws * (src.len / ws) - bs) 0).take dst.len)) := by
  unfold spill
  by_cases h1 : src.len < bs
  · simp [h1]
  · by_cases h2 : dst.len < bs
    · simp [h2]
    · by_cases h3 : inexactOverlap { dst with len := bs } { src with len := bs } = true
      · simp [h1, h2, h3]
      · simp [h1, h2, h3]

theorem implementsSpill_of {bs ws : Nat} {ok : Nat → Prop} [DecidablePred ok] {f g : Bytes → Bytes → Bytes}
    (h : ∀ key : Bytes, ok key.length → BlockFn bs (f key) (g key)) :
    ImplementsSpill (fun key => if ok key.length then .ok ⟨bs, spill ws bs (f key), spill ws bs (g key)⟩ else .err) ok bs ws :=
  fun key => ⟨fun hk => ⟨_, if_pos hk, rfl, f key, g key, h key hk, fun m dst src =>
    ⟨fun hp => ⟨(spill_eq ..).trans (if_pos hp), (spill_eq ..).trans (if_pos hp)⟩, fun hp => ⟨(spill_eq ..).trans (if_neg hp), (spill_eq ..).trans (if_neg hp)⟩⟩⟩, fun hk => if_neg hk⟩

/-- As long as `src` has no further whole word or `dst` is just a block, such a package behaves well. -/
theorem ImplementsSpill.short {new : Bytes → Res Obj} {ok : Nat → Prop} {bs ws : Nat} (h : ImplementsSpill new ok bs ws) (hw : 0 < ws) (hd : ws ∣ bs) :
    ImplementsFor (fun dst src => src.len < bs + ws ∨ dst.len = bs) new ok bs := by
  intro key
  refine ⟨fun hk => ?_, (h key).2⟩
  obtain ⟨c, hc, hb, E, D, hE, hm⟩ := (h key).1 hk
  refine ⟨c, hc, hb, E, D, hE, fun m dst src hp => ?_⟩
  by_cases hcond : (src.len < bs ∨ dst.len < bs ∨ inexactOverlap { dst with len := bs } { src with len := bs } = true)
  · rw [if_pos hcond, if_pos hcond]
    exact (hm m dst src).1 hcond
  · rw [if_neg hcond, if_neg hcond]
    have key : ∀ F : Bytes, F.length = bs → (F ++ List.replicate (ws * (src.len / ws) - bs) 0).take dst.len = F := by
      intro F hF
      rcases hp with hp | hp
      · obtain ⟨q, rfl⟩ := hd
        have h1 : src.len / ws < q + 1 := (Nat.div_lt_iff_lt_mul hw).2 (by rw [Nat.add_mul, Nat.mul_comm q]; omega)
        have h2 : ws * (src.len / ws) ≤ ws * q := Nat.mul_le_mul_left _ (by omega)
        rw [show ws * (src.len / ws) - ws * q = 0 from by omega, List.replicate_zero, List.append_nil, List.take_of_length_le (by omega)]
      · rw [hp, List.take_append_of_le_length (by omega), List.take_of_length_le (by omega)]
    have := (hm m dst src).2 hcond
    rw [key _ (hE.lenE _ (by simp)), key _ (hE.lenD _ (by simp))] at this
    exact this

/-- With longer slices the bytes after the block are overwritten: such a package does not implement a block cipher. -/
theorem ImplementsSpill.not {new : Bytes → Res Obj} {ok : Nat → Prop} {bs ws : Nat} (h : ImplementsSpill new ok bs ws) (n : Nat) (hn : ok n) (hd : ws ∣ bs)
    (hb : 0 < bs) : ¬ Implements new ok bs := by
  intro hi
  have hk : ok (List.replicate n (0 : Byte)).length := by rwa [List.length_replicate]
  obtain ⟨c, hc, -, E', D', hE', hm⟩ := (h (List.replicate n 0)).1 hk
  obtain ⟨c', hc', -, E, D, hE⟩ := (hi (List.replicate n 0)).1 hk
  rw [hc] at hc'
  cases hc'
  have hd' : ws ∣ 2 * bs := Dvd.dvd.mul_left hd 2
  have ho : ¬ ((2 * bs) < bs ∨ (2 * bs) < bs ∨ inexactOverlap ⟨2 * bs, bs, 2 * bs⟩ ⟨0, bs, 2 * bs⟩ = true) := by
    have : inexactOverlap ⟨2 * bs, bs, 2 * bs⟩ ⟨0, bs, 2 * bs⟩ = false := by
      unfold inexactOverlap anyOverlap
      simp
      omega
    rw [this]
    simp
    omega
  have e1 := ((hm (fun _ => 1) ⟨2 * bs, 2 * bs, 2 * bs⟩ ⟨0, 2 * bs, 2 * bs⟩).2 ho).1
  have e2 := hE.enc_eq (fun _ => 1) ⟨2 * bs, 2 * bs, 2 * bs⟩ ⟨0, 2 * bs, 2 * bs⟩
  rw [if_neg ho, e1] at e2
  have e3 := congrFun (Res.ok.inj e2) (2 * bs + bs)
  have l1 := hE'.lenE (Mem.read (fun _ => 1) 0 bs) (by simp)
  have l2 := hE.lenE (Mem.read (fun _ => 1) 0 bs) (by simp)
  have e5 : Mem.write (fun _ => 1) (2 * bs) (E (Mem.read (fun _ => 1) 0 bs)) (2 * bs + bs) = 1 := Mem.write_of_ge _ _ _ _ (by omega)
  have hq : ws * (2 * bs / ws) = 2 * bs := Nat.mul_div_cancel' hd'
  have e4 := Mem.write_at (fun _ => 1) (2 * bs) ((E' (Mem.read (fun _ => 1) 0 bs) ++ List.replicate (ws * (2 * bs / ws) - bs) 0).take (2 * bs)) bs
    (by rw [List.length_take, List.length_append, l1, List.length_replicate, hq]; omega)
  rw [List.getElem_take, List.getElem_append_right (by omega), List.getElem_replicate] at e4
  exact absurd (e4.symm.trans (e3.trans e5)) (by decide)

/-! Additive functions -/

/-- Two additive functions that agree on the words with a single bit set are equal. -/
theorem additive_ext {n m : Nat} (f g : BitVec n → BitVec m) (hf : ∀ x y, f (x ^^^ y) = f x ^^^ f y) (hg : ∀ x y, g (x ^^^ y) = g x ^^^ g y)
    (h : ∀ i, i < n → f (BitVec.twoPow n i) = g (BitVec.twoPow n i)) (x : BitVec n) : f x = g x := by
  have zero : ∀ k : BitVec n → BitVec m, (∀ x y, k (x ^^^ y) = k x ^^^ k y) → k 0 = 0 := by
    intro k hk
    have h1 : k 0 ^^^ k 0 = 0 := BitVec.xor_self
    have h2 : (0 : BitVec n) ^^^ 0 = 0 := BitVec.xor_self
    rw [← hk, h2] at h1
    exact h1
  have f0 := zero f hf
  have g0 := zero g hg
  have main : ∀ k, k ≤ n → ∀ x : BitVec n, x.toNat < 2 ^ k → f x = g x := by
    intro k
    induction k with
    | zero =>
      intro _ x hx
      have : x = 0 := BitVec.eq_of_toNat_eq (by simp at hx ⊢; omega)
      rw [this, f0, g0]
    | succ k ih =>
      intro hk x hx
      by_cases hlt : x.toNat < 2 ^ k
      · exact ih (by omega) x hlt
      · have e : x = BitVec.twoPow n k ^^^ (x ^^^ BitVec.twoPow n k) := by
          rw [BitVec.xor_comm x, ← BitVec.xor_assoc, BitVec.xor_self]
          exact BitVec.zero_xor.symm
        have hb : (x ^^^ BitVec.twoPow n k).toNat < 2 ^ k := by
          rw [BitVec.toNat_xor, BitVec.toNat_twoPow, Nat.mod_eq_of_lt (Nat.pow_lt_pow_right (by decide) (by omega))]
          apply Nat.lt_pow_two_of_testBit
          intro i hi
          rw [Nat.testBit_xor, Nat.testBit_two_pow]
          by_cases hik : i = k
          · subst hik
            have : x.toNat.testBit i = true := by
              rw [Nat.testBit_eq_decide_div_mod_eq]
              have : x.toNat / 2 ^ i = 1 := by
                apply Nat.div_eq_of_lt_le
                · omega
                · rw [Nat.pow_succ] at hx; omega
              simp [this]
            simp [this]
          · have : x.toNat.testBit i = false := Nat.testBit_lt_two_pow (Nat.lt_of_lt_of_le hx (Nat.pow_le_pow_right (by decide) (by omega)))
            rw [this]
            have hki : ¬ k = i := fun h => hik h.symm
            simp [hki]
        rw [e, hf, hg, h k (by omega), ih (by omega) _ hb]
  exact main n (Nat.le_refl _) x x.isLt

/-- Ordering of sums, to cancel equal terms. -/
theorem xor_cancel {w : Nat} (x y : BitVec w) : x ^^^ (x ^^^ y) = y := by rw [← BitVec.xor_assoc, BitVec.xor_self, BitVec.zero_xor]

theorem shl_xor {w : Nat} (x y : BitVec w) (n : Nat) : (x ^^^ y) <<< n = x <<< n ^^^ y <<< n := by
  apply BitVec.eq_of_getLsbD_eq
  intro i hi
  simp only [BitVec.getLsbD_xor, BitVec.getLsbD_shiftLeft]
  by_cases h : i < n <;> simp [h, hi]
theorem shr_xor {w : Nat} (x y : BitVec w) (n : Nat) : (x ^^^ y) >>> n = x >>> n ^^^ y >>> n := by
  apply BitVec.eq_of_getLsbD_eq
  intro i hi
  simp only [BitVec.getLsbD_xor, BitVec.getLsbD_ushiftRight]
theorem setWidth_xor' {w : Nat} (x y : BitVec w) (n : Nat) : (x ^^^ y).setWidth n = x.setWidth n ^^^ y.setWidth n := by
  apply BitVec.eq_of_getLsbD_eq
  intro i hi
  simp [hi]

/-- Rounds `A 0`, `G`, `A 1`, `G`, …, `A m` are undone by `B m`, `H`, …, `H`, `B 0`. -/
theorem sandwich {S : Type} (A B : Nat → S → S) (G H : S → S) (hG : ∀ s, H (G s) = s) (hB : ∀ i s, B i (A i s) = s) (m : Nat) (s : S) :
    B 0 (((List.range m).reverse.map (· + 1)).foldl (fun s i => H (B i s)) (A m ((List.range m).foldl (fun s i => G (A i s)) s))) = s := by
  induction m generalizing s with
  | zero => exact hB 0 s
  | succ m ih =>
    rw [List.range_succ, List.reverse_append, List.map_append]
    simp only [List.reverse_cons, List.reverse_nil, List.nil_append, List.map_cons, List.map_nil, List.foldl_append, List.foldl_cons, List.foldl_nil]
    rw [hB, hG]
    exact ih s

/-! Rotations by shifts -/

theorem rotl_bit {w : Nat} (x : BitVec w) (n i : Nat) (hn : n < w) (hi : i < w) :
    (rotl x n).getLsbD i = if i < n then x.getLsbD (w - n + i) else x.getLsbD (i - n) := by
  unfold rotl
  rw [BitVec.getLsbD_rotateLeft, Nat.mod_eq_of_lt hn]
  by_cases h : i < n
  · simp [h]
  · simp [h, hi]
theorem rotl_shift_xor {w : Nat} (x : BitVec w) (m n : Nat) (h0 : 0 < n) (hn : n < w) (hm : m + n = w) : (x <<< n) ^^^ (x >>> m) = rotl x n := by
  apply BitVec.eq_of_getLsbD_eq; intro i hi
  rw [rotl_bit x n i hn hi, BitVec.getLsbD_xor, BitVec.getLsbD_ushiftRight, BitVec.getLsbD_shiftLeft, show w - n = m by omega]
  by_cases h : i < n
  · simp [h]
  · have : x.getLsbD (m + i) = false := BitVec.getLsbD_of_ge x _ (by omega)
    simp [h, hi, this]
theorem rotl_shift_or {w : Nat} (x : BitVec w) (m n : Nat) (h0 : 0 < n) (hn : n < w) (hm : m + n = w) : (x <<< n) ||| (x >>> m) = rotl x n := by
  apply BitVec.eq_of_getLsbD_eq; intro i hi
  rw [rotl_bit x n i hn hi, BitVec.getLsbD_or, BitVec.getLsbD_ushiftRight, BitVec.getLsbD_shiftLeft, show w - n = m by omega]
  by_cases h : i < n
  · simp [h]
  · have : x.getLsbD (m + i) = false := BitVec.getLsbD_of_ge x _ (by omega)
    simp [h, hi, this]

end Verif.Cipher
