import Verif.Mac.PmacLemmas
/-
Property C45 : the hash/pmac object computes PMAC of whatever has been written since the last Reset.
-/
namespace Verif.Mac
open Verif.Mode.Spec (natBe beNat)

/-- `NewWithTagSize` succeeds exactly for tag sizes from 1 to the block size and block sizes of 64, 128, 256, 512 or
1024 bits, and reports an error otherwise. -/
theorem C45_new_ok_iff (c : BlockCipher) (ts : Int) :
    (pmacNew c ts = .err ∨ ∃ o, pmacNew c ts = .ok o) ∧
    ((∃ o, pmacNew c ts = .ok o) ↔ 1 ≤ ts ∧ ts ≤ c.bs ∧ (c.bs = 8 ∨ c.bs = 16 ∨ c.bs = 32 ∨ c.bs = 64 ∨ c.bs = 128)) := by
  unfold pmacNew
  by_cases h : ts ≤ 0 ∨ ts > c.bs
  · rw [if_pos h]
    refine ⟨.inl rfl, ?_⟩
    constructor
    · rintro ⟨o, ho⟩; simp at ho
    · rintro ⟨h1, h2, -⟩; omega
  · rw [if_neg h]
    by_cases hb : c.bs = 8 ∨ c.bs = 16 ∨ c.bs = 32 ∨ c.bs = 64 ∨ c.bs = 128
    · rw [if_neg (not_not_intro hb)]
      exact ⟨.inr ⟨_, rfl⟩, ⟨fun _ => ⟨by omega, by omega, hb⟩, fun _ => ⟨_, rfl⟩⟩⟩
    · rw [if_pos hb]
      refine ⟨.inl rfl, ?_⟩
      constructor
      · rintro ⟨o, ho⟩; simp at ho
      · rintro ⟨_, _, h3⟩; exact absurd h3 hb

/-- A history in which no message exceeds `limit` bytes and nothing but `Reset` follows a `Sum`. -/
def Gentle (limit : Nat) : Bytes → List Hash.Op → Prop
  | _, [] => True
  | M, .write x :: ops => M.length + x.length ≤ limit ∧ Gentle limit (M ++ x) ops
  | M, .sum _ :: ops => (ops = [] ∨ ops.head? = some .reset) ∧ Gentle limit M ops
  | _, .reset :: ops => Gentle limit [] ops

/-- Doubling has at most one preimage. -/
theorem dbl_inj (n : Nat) (hn : 1 ≤ n) (x y : Bytes) (hx : x.length = n) (hy : y.length = n)
    (h : Spec.dbl n 0x87 x = Spec.dbl n 0x87 y) : x = y := by
  have vx := Aead.beNat_lt x
  have vy := Aead.beNat_lt y
  have hp : 256 ^ n = 2 ^ (8 * n) := by rw [show 256 = 2 ^ 8 from rfl, ← Nat.pow_mul]
  have hh : 2 ^ (8 * n) = 2 * 2 ^ (8 * n - 1) := by rw [← Nat.pow_succ']; congr 1; omega
  have h8 : 0x87 < 2 ^ (8 * n) := Nat.lt_of_lt_of_le (by decide : 0x87 < 2 ^ 8) (Nat.pow_le_pow_right (by omega) (by omega))
  rw [hx, hp] at vx
  rw [hy, hp] at vy
  have key : beNat x = beNat y := by
    unfold Spec.dbl at h
    have lt : ∀ v, v < 2 ^ (8 * n) → (if v < 2 ^ (8 * n - 1) then 2 * v else (2 * v - 2 ^ (8 * n)) ^^^ 0x87) < 256 ^ n := by
      intro v hv
      rw [hp]
      split
      · omega
      · exact Nat.xor_lt_two_pow (by omega) h8
    have e := congrArg beNat h
    rw [Aead.beNat_natBe _ _ (lt _ vx), Aead.beNat_natBe _ _ (lt _ vy)] at e
    have odd : ∀ w, w % 2 = 0 → (w ^^^ 0x87) % 2 = 1 := by
      intro w hw
      have := Nat.xor_mod_two_pow (a := w) (b := 0x87) (n := 1)
      simp only [Nat.pow_one] at this
      rw [this, hw]; rfl
    by_cases c1 : beNat x < 2 ^ (8 * n - 1) <;> by_cases c2 : beNat y < 2 ^ (8 * n - 1)
    · rw [if_pos c1, if_pos c2] at e; omega
    · rw [if_pos c1, if_neg c2] at e
      have := odd (2 * beNat y - 2 ^ (8 * n)) (by omega)
      omega
    · rw [if_neg c1, if_pos c2] at e
      have := odd (2 * beNat x - 2 ^ (8 * n)) (by omega)
      omega
    · rw [if_neg c1, if_neg c2] at e
      have := congrArg (· ^^^ 0x87) e
      simp only [Nat.xor_assoc, Nat.xor_self, Nat.xor_zero] at this
      omega
  rw [← Mode.natBe_beNat x, ← Mode.natBe_beNat y, hx, hy, key]

theorem pmac_ok (c : BlockCipher) (ts : Int) (d : Pmac) (s : PmacSt) (h : pmacNew c ts = .ok (d, s)) :
    d.OK c ts.toNat ∧ PmacHolds c s [] ∧ s.digest.length = c.bs ∧ s.offset.length = c.bs := by
  obtain ⟨h1, h2, h3⟩ := (C45_new_ok_iff c ts).2.mp ⟨_, h⟩
  unfold pmacNew at h
  rw [if_neg (by omega), if_neg (not_not_intro h3)] at h
  simp only [Res.ok.injEq, Prod.mk.injEq] at h
  obtain ⟨rfl, rfl⟩ := h
  refine ⟨⟨rfl, rfl, rfl⟩, ⟨[], [], rfl, ⟨by simp, by simp, ?_, rfl, by simp⟩, by simp, fun _ => rfl, rfl, by simp, by simp⟩, by simp, by simp⟩
  simp [Spec.pmacZ, Spec.zero]

/-- For every supported block size, every history in which no message is longer than `n·2^(2n-1)` bytes and nothing but
`Reset` follows a `Sum` returns normally, and every `Sum(p)` returns `p` followed by the (truncated) PMAC of the bytes
written since the last `Reset`, however they were cut into `Write` calls. `Linv` is the block with
`Linv · x = L = E(0)`. The reduction constant is 0x87 for every block size, which is right for 128-bit blocks only.
Missing for the full property: `Write` or `Sum` after a `Sum` (false, see `C45_sum_destroys_violated`), longer messages
(false, see `C45_write_panics_iff`), the right constant for other block sizes (false, see `C45_64_violated`). -/
theorem C45_history_partial (c : BlockCipher) (ts : Int) (d : Pmac) (s : PmacSt) (h : pmacNew c ts = .ok (d, s))
    (Linv : Bytes) (hlen : Linv.length = c.bs) (hinv : Spec.dbl c.bs 0x87 Linv = c.E (Spec.zero c.bs))
    (ops : List Hash.Op) (hg : Gentle (c.bs * 2 ^ (2 * c.bs - 1)) [] ops) :
    ∃ s', (pmacObj c d).run s ops =
      .ok (s', Hash.expected (fun M => (Spec.pmac c.E c.bs 0x87 Linv M).take ts.toNat) [] ops) := by
  obtain ⟨hd, hs, hl1, hl2⟩ := pmac_ok c ts d s h
  have hE : (c.E (Spec.zero c.bs)).length = c.bs := c.lenE _ (by simp [Spec.zero])
  have hL : Linv = pmacInv (c.E (Spec.zero c.bs)) := by
    apply dbl_inj c.bs c.bs_pos _ _ hlen (by rw [pmacInv_length, hE])
    have := dbl_pmacInv (c.E (Spec.zero c.bs)) (by rw [hE]; exact c.bs_pos)
    rw [hE] at this
    rw [this, hinv]
  subst hL
  -- either the state holds the message, or a Sum was just made and a Reset follows
  have main : ∀ (ops : List Hash.Op) (s : PmacSt) (M : Bytes), Gentle (c.bs * 2 ^ (2 * c.bs - 1)) M ops →
      (PmacHolds c s M ∨ ((ops = [] ∨ ops.head? = some .reset) ∧ s.buf.length = c.bs)) →
      s.digest.length = c.bs → s.offset.length = c.bs →
      ∃ s', (pmacObj c d).run s ops =
        .ok (s', Hash.expected (fun M => (Spec.pmac c.E c.bs 0x87 (pmacInv (c.E (Spec.zero c.bs))) M).take ts.toNat) M ops) := by
    intro ops
    induction ops with
    | nil => intro s M _ _ _ _; exact ⟨s, rfl⟩
    | cons op ops ih =>
      intro s M hg hst hl1 hl2
      cases op with
      | write x =>
        rcases hst with hst | hst
        · obtain ⟨s', e, hs'⟩ := (pmac_write hd s M x hst).1 hg.1
          have hs'' := hs'
          obtain ⟨A, T, _, hm, _⟩ := hs''
          obtain ⟨t, e2⟩ := ih s' (M ++ x) hg.2 (.inl hs')
            (by rw [hm.digest]; exact pmacSum_length _ (Mode.chunks_all_len _ c.bs_pos _ hm.dvd))
            (by rw [hm.offset]; exact pmacZ_length _)
          refine ⟨t, ?_⟩
          simp only [Hash.Obj.run, pmacObj, e, Res.bind_ok]
          exact e2
        · rcases hst.1 with h | h <;> simp at h
      | sum p =>
        rcases hst with hst | hst
        · have e := pmac_sum hd s M hst
          have hb : s.buf.length = c.bs := by obtain ⟨A, T, _, hm, _⟩ := hst; exact hm.buf
          obtain ⟨t, e2⟩ := ih { s with digest := pmacCheckSum c d s } M hg.2 (.inr ⟨hg.1, hb⟩)
            (by
              obtain ⟨A, T, _, hm, hT, _, hpos, _⟩ := hst
              have hil : d.lInv.length = c.bs := by rw [hd.lInv, pmacInv_length, lPow_length]
              simp only [pmacCheckSum]
              split
              · apply c.lenE; rw [xorInto_length, xorInto_length, hl1]
              · apply c.lenE; rw [List.length_set, xorInto_length, hl1])
            hl2
          refine ⟨t, ?_⟩
          simp only [Hash.Obj.run, Hash.expected]
          have hsum : (pmacObj c d).sum s p = .ok ({ s with digest := pmacCheckSum c d s }, p ++ (pmacCheckSum c d s).take d.tagsize) := rfl
          rw [hsum]
          simp only [Res.bind_ok]
          rw [e2, e, hd.ts]
          rfl
        · rcases hst.1 with h | h <;> simp at h
      | reset =>
        have hb : s.buf.length = c.bs := by
          rcases hst with hst | hst
          · obtain ⟨A, T, _, hm, _⟩ := hst; exact hm.buf
          · exact hst.2
        have e : (pmacReset s) = ⟨Spec.zero c.bs, Spec.zero c.bs, Spec.zero c.bs, 0, 0⟩ := by
          unfold pmacReset; rw [hl1, hl2, hb]; rfl
        have hz : (Spec.zero c.bs).length = c.bs := by simp [Spec.zero]
        obtain ⟨t, e2⟩ := ih (pmacReset s) [] hg (.inl (by
            rw [e]
            refine ⟨[], [], rfl, ⟨by simp, by simp, ?_, rfl, hz⟩, by simp, fun _ => rfl, rfl, by simp, by simp⟩
            simp [Spec.pmacZ])) (by rw [e]; exact hz) (by rw [e]; exact hz)
        exact ⟨t, e2⟩
  exact main ops s [] hg (.inl hs) hl1 hl2

/-- The inverse exists: the hypotheses of `C45_history_partial` on `Linv` are met by exactly one block. -/
theorem C45_inverse (x : Bytes) (h : 1 ≤ x.length) :
    ∃ y : Bytes, (y.length = x.length ∧ Spec.dbl x.length 0x87 y = x) ∧
      ∀ z : Bytes, z.length = x.length ∧ Spec.dbl x.length 0x87 z = x → z = y := by
  refine ⟨pmacInv x, ⟨pmacInv_length x, dbl_pmacInv x h⟩, ?_⟩
  rintro z ⟨h1, h2⟩
  exact dbl_inj _ h z _ h1 (pmacInv_length x) (by rw [h2, dbl_pmacInv x h])

/-- Any sequence of `Write` calls on a new object panics exactly when more than `n·2^(2n-1)` bytes are written: then the
precomputed table is indexed out of range. -/
theorem C45_write_panics_iff (c : BlockCipher) (ts : Int) (d : Pmac) (s : PmacSt) (h : pmacNew c ts = .ok (d, s)) (xs : List Bytes) :
    (pmacObj c d).run s (xs.map .write) = .panic ↔ c.bs * 2 ^ (2 * c.bs - 1) < xs.flatten.length := by
  obtain ⟨hd, hs, -, -⟩ := pmac_ok c ts d s h
  have main : ∀ (xs : List Bytes) (s : PmacSt) (M : Bytes), PmacHolds c s M →
      ((pmacObj c d).run s (xs.map .write) = .panic ↔ c.bs * pmacLimit c.bs < M.length + xs.flatten.length) := by
    intro xs
    induction xs with
    | nil =>
      intro s M hs
      obtain ⟨A, T, _, _, _, _, _, _, hlen⟩ := hs
      simp [Hash.Obj.run]; exact hlen
    | cons x xs ih =>
      intro s M hs
      obtain ⟨w1, w2⟩ := pmac_write hd s M x hs
      have hw : (pmacObj c d).write = pmacWrite c d := rfl
      simp only [List.map_cons, Hash.Obj.run, hw, List.flatten_cons, List.length_append]
      rcases Nat.lt_or_ge (c.bs * pmacLimit c.bs) (M.length + x.length) with hlt | hle
      · rw [w2 hlt]
        simp only [Res.bind_panic, true_iff]; omega
      · obtain ⟨s', e, hs'⟩ := w1 hle
        rw [e]
        simp only [Res.bind_ok]
        rw [ih s' _ hs', List.length_append, Nat.add_assoc]
  have := main xs s [] hs
  simpa [pmacLimit] using this

/-- With a 64-bit block cipher, a message of more than 256 KiB makes `Write` panic. -/
theorem C45_long_message_violated (c : BlockCipher) (hc : c.bs = 8) (ts : Int) (d : Pmac) (s : PmacSt)
    (h : pmacNew c ts = .ok (d, s)) (x : Bytes) (hx : 262144 < x.length) : pmacWrite c d s x = .panic := by
  have := (C45_write_panics_iff c ts d s h [x]).mpr (by rw [hc]; simpa using hx)
  simp only [List.map_cons, List.map_nil, Hash.Obj.run] at this
  have hw : (pmacObj c d).write = pmacWrite c d := rfl
  rw [hw] at this
  cases hp : pmacWrite c d s x with
  | ok s' => rw [hp] at this; simp at this
  | panic => rfl
  | err => rw [hp] at this; simp at this
  | hang => rw [hp] at this; simp at this

/-- Outputs of a history on a new PMAC object. -/
def pmacHistory (c : BlockCipher) (ts : Int) (ops : List Hash.Op) : Option (List Bytes) :=
  match pmacNew c ts with
  | .ok (d, s) => (pmacObj c d).outputs s ops
  | _ => none

/-- `Sum` overwrites the running digest, against `hash.Hash`'s contract and the comment in the code: the same `Sum`
made twice returns two different values. -/
theorem C45_sum_destroys_violated : ∃ (c : BlockCipher) (a b : Bytes), c.bs = 16 ∧ a ≠ b ∧
    pmacHistory c 16 [.write [1, 2, 3], .sum [], .sum []] = some [a, b] := by
  refine ⟨toyCipher 16 (by decide), _, _, rfl, ?_, rfl⟩
  decide +kernel

/-- For 64-bit blocks the code doubles with 0x87 instead of 0x1b, so it does not compute PMAC over such ciphers. -/
theorem C45_64_violated : ∃ (c : BlockCipher) (Linv M : Bytes), c.bs = 8 ∧ Spec.dbl 8 0x1b Linv = c.E (Spec.zero 8) ∧
    Linv.length = 8 ∧ pmacHistory c 8 [.write M, .sum []] ≠ some [Spec.pmac c.E 8 0x1b Linv M] := by
  refine ⟨xorCipher [0x80, 0, 0, 0, 0, 0, 0, 1] (by decide), [0xc0, 0, 0, 0, 0, 0, 0, 0x0d], [1, 2, 3, 4, 5, 6, 7, 8], rfl, ?_, rfl, ?_⟩ <;>
    decide +kernel

/- Concrete case: three messages on one object with Reset in between, cut across block boundaries. -/
example : pmacHistory (toyCipher 8 (by decide)) 4
      [.write [1, 2, 3], .write [4, 5, 6, 7, 8, 9], .sum [7], .reset, .write [1, 2, 3, 4, 5, 6, 7, 8], .sum [], .reset, .sum []] =
    some (Hash.expected (fun M => (Spec.pmac (toyCipher 8 (by decide)).E 8 0x87 (pmacInv (List.replicate 8 1)) M).take 4) []
      [.write [1, 2, 3], .write [4, 5, 6, 7, 8, 9], .sum [7], .reset, .write [1, 2, 3, 4, 5, 6, 7, 8], .sum [], .reset, .sum []]) := by
  decide +kernel

example : Gentle 262144 []
    [.write [1, 2, 3], .write [4, 5, 6, 7, 8, 9], .sum [7], .reset, .write [1, 2, 3, 4, 5, 6, 7, 8], .sum [], .reset, .sum []] := by
  simp [Gentle]

end Verif.Mac
