import Verif.Mode.StreamHelp
import Verif.Mode.BlockProps
/-
C18–C25 and C29 (part): the stream modes of /repo/mode.

Reading guide.  `xxxXor c dec x m dst src` is one call `XORKeyStream(dst, src)` on an object with registers
`x` in memory `m`; it returns the new memory and registers.  `m.write p bs` is `m` with `bs` stored at `p` and
nothing else changed.  `Calls A call x ins outs x'` is any sequence of successful calls on one object: `ins`
are the contents of the successive sources, `outs` what was left in the destinations; each call has its own
memory and buffers.  (A call whose buffers overlap partially is refused, see the `…_panics_iff` theorems, so no
aliasing condition is needed in the histories.)
-/
namespace Verif.Mode

variable (c : BlockCipher)

/-! ### C18 CFB -/

/-- C18: one CFB encryption writes the CFB ciphertext into dst and changes nothing else. -/
theorem C18_cfb_encrypt_spec (iv : Bytes) (x : Cfb) (hnew : cfbNew c iv = .ok x) (m : Mem) (dst src : Slice)
    (h2 : src.len ≤ dst.len) (h3 : NoPartialOverlap dst src) :
    ∃ x', cfbXor c false x m dst src =
      .ok (m.write dst.ptr (Spec.cfb c.E iv (chunks c.bs (m.read src.ptr src.len))).flatten, x') := by
  obtain ⟨hl, hR⟩ := cfbNew_R c hnew
  obtain ⟨x', e, _⟩ := (cfb_ok c false).call hR m dst src h2 h3
  exact ⟨x', by rw [cfbXor, e, cfbF_spec c iv hl]⟩

example : ∃ x m' x', cfbNew toy2 [7, 8] = .ok x ∧
    cfbXor toy2 false x (fun a => BitVec.ofNat 8 a) ⟨1, 3, 3⟩ ⟨1, 3, 3⟩ = .ok (m', x') ∧
    m'.read 0 5 = [0, 8, 10, 8, 4] := by
  refine ⟨_, _, _, rfl, rfl, ?_⟩
  decide

/-- C18: the decrypter undoes any history of the encrypter, however the ciphertext is cut up. -/
theorem C18_cfb_roundtrip (iv : Bytes) (x : Cfb) (hnew : cfbNew c iv = .ok x)
    {A B : Slice → Slice → Prop} {ins outs ins' outs' : List Bytes} {x1 x2 : Cfb}
    (he : Calls A (cfbXor c false) x ins outs x1) (hd : Calls B (cfbXor c true) x ins' outs' x2)
    (h : ins'.flatten = outs.flatten) : outs'.flatten = ins.flatten := by
  obtain ⟨_, hR⟩ := cfbNew_R c hnew
  exact (cfb_ok c false).undo (cfb_ok c true) (bRun_append _) (bRun_append _)
    (fun a => (cfb_byte_roundtrip c a _).1) hR hR he hd h

example : ∃ x outs x1, cfbNew toy2 [7, 8] = .ok x ∧
    Calls (fun _ _ => True) (cfbXor toy2 false) x [[1], [2, 3, 4], [], [5]] outs x1 := by
  obtain ⟨_, hR⟩ := cfbNew_R toy2 (iv := [7, 8]) rfl
  obtain ⟨o, s, h⟩ := (cfb_ok toy2 false).calls_exist [[1], [2, 3, 4], [], [5]] _ _ hR
  exact ⟨_, o, s, rfl, h⟩

/-- C18: exactly which calls panic; none hangs or fails otherwise. -/
theorem C18_cfb_panics_iff (dec : Bool) (iv : Bytes) (x : Cfb) (hnew : cfbNew c iv = .ok x)
    {A : Slice → Slice → Prop} {ins outs : List Bytes} {x1 : Cfb} (he : Calls A (cfbXor c dec) x ins outs x1)
    (m : Mem) (dst src : Slice) :
    (cfbXor c dec x1 m dst src = .panic ↔ (dst.len < src.len ∨ ¬ NoPartialOverlap dst src)) ∧
    cfbXor c dec x1 m dst src ≠ .hang ∧ cfbXor c dec x1 m dst src ≠ .err := by
  obtain ⟨_, hR⟩ := cfbNew_R c hnew
  exact (cfb_ok c dec).panics_iff
    ((cfb_ok c dec).calls (fun _ => True) (fun t a b _ => bRun_append _ t a b) hR he (fun _ _ => trivial)).2
    m dst src

example : ¬ NoPartialOverlap ⟨1, 3, 3⟩ ⟨0, 3, 3⟩ := by decide

/-- C29 for CFB: the output does not depend on how the input is cut into calls. -/
theorem C29_cfb_pieces (dec : Bool) (iv : Bytes) (x : Cfb) (hnew : cfbNew c iv = .ok x)
    {A B : Slice → Slice → Prop} {ins outs ins' outs' : List Bytes} {x1 x2 : Cfb}
    (h1 : Calls A (cfbXor c dec) x ins outs x1) (h2 : Calls B (cfbXor c dec) x ins' outs' x2)
    (h : ins.flatten = ins'.flatten) : outs.flatten = outs'.flatten := by
  obtain ⟨_, hR⟩ := cfbNew_R c hnew
  exact (cfb_ok c dec).pieces (fun _ => True) (fun t a b _ => bRun_append _ t a b) hR h1 (fun _ _ => trivial) h2
    (fun _ _ => trivial) h

/-! ### C19 CFB1 -/

/-- C19: one CFB1 encryption writes the 1-bit CFB ciphertext (bits taken from the most significant end of each
byte).  `Eb` is the block cipher seen as a function on bit strings. -/
theorem C19_cfb1_encrypt_spec (Eb : List Bool → List Bool)
    (hEb : ∀ b : Bytes, b.length = c.bs → Eb (Spec.toBits b) = Spec.toBits (c.E b))
    (iv x : Bytes) (hnew : segNew c iv = .ok x) (m : Mem) (dst src : Slice)
    (h2 : src.len ≤ dst.len) (h3 : NoPartialOverlap dst src) :
    ∃ o x', cfb1Xor c false x m dst src = .ok (m.write dst.ptr o, x') ∧ o.length = src.len ∧
      Spec.toBits o = Spec.cfb1 Eb (Spec.toBits iv) (Spec.toBits (m.read src.ptr src.len)) := by
  obtain ⟨rfl, hl⟩ := segNew_ok c hnew
  obtain ⟨x', e, _, e2⟩ := (cfb1_ok c false).call (t := x) rfl m dst src h2 h3
  exact ⟨_, x', e, e2, cfb1F_spec c Eb hEb x hl _⟩

/-- Every cipher has a bit-level version. -/
example (c : BlockCipher) : ∃ Eb : List Bool → List Bool, ∀ b : Bytes, b.length = c.bs →
    Eb (Spec.toBits b) = Spec.toBits (c.E b) :=
  ⟨fun l => Spec.toBits (c.E (unBits l c.bs)), fun b hb => by simp only; rw [← hb, unBits_toBits]⟩
example : segNew toy2 [7, 8] = .ok [7, 8] := by decide

/-- C19: the decrypter undoes any history of the encrypter. -/
theorem C19_cfb1_roundtrip (iv x : Bytes) (hnew : segNew c iv = .ok x)
    {A B : Slice → Slice → Prop} {ins outs ins' outs' : List Bytes} {x1 x2 : Bytes}
    (he : Calls A (cfb1Xor c false) x ins outs x1) (hd : Calls B (cfb1Xor c true) x ins' outs' x2)
    (h : ins'.flatten = outs.flatten) : outs'.flatten = ins.flatten := by
  obtain ⟨rfl, hl⟩ := segNew_ok c hnew
  exact (cfb1_ok c false).undo (cfb1_ok c true) (bRun_append _) (bRun_append _)
    (fun a => (cfb1_roundtrip c a x).1) rfl rfl he hd h

example : ∃ outs x1, Calls (fun _ _ => True) (cfb1Xor toy2 false) [7, 8] [[1], [2, 3, 4]] outs x1 :=
  (cfb1_ok toy2 false).calls_exist _ _ _ rfl

/-- C19: exactly which calls panic. -/
theorem C19_cfb1_panics_iff (dec : Bool) (x : Bytes) (m : Mem) (dst src : Slice) :
    (cfb1Xor c dec x m dst src = .panic ↔ (dst.len < src.len ∨ ¬ NoPartialOverlap dst src)) ∧
    cfb1Xor c dec x m dst src ≠ .hang ∧ cfb1Xor c dec x m dst src ≠ .err :=
  (cfb1_ok c dec).panics_iff (t := x) rfl m dst src

/-- C29 for CFB1. -/
theorem C29_cfb1_pieces (dec : Bool) (x : Bytes)
    {A B : Slice → Slice → Prop} {ins outs ins' outs' : List Bytes} {x1 x2 : Bytes}
    (h1 : Calls A (cfb1Xor c dec) x ins outs x1) (h2 : Calls B (cfb1Xor c dec) x ins' outs' x2)
    (h : ins.flatten = ins'.flatten) : outs.flatten = outs'.flatten :=
  (cfb1_ok c dec).pieces (fun _ => True) (fun t a b _ => bRun_append _ t a b) (t := x) rfl h1 (fun _ _ => trivial)
    h2 (fun _ _ => trivial) h

/-! ### C20 CFB8 -/

/-- C20: one CFB8 encryption writes the 8-bit CFB ciphertext of SP 800-38A. -/
theorem C20_cfb8_encrypt_spec (iv x : Bytes) (hnew : segNew c iv = .ok x) (m : Mem) (dst src : Slice)
    (h2 : src.len ≤ dst.len) (h3 : NoPartialOverlap dst src) :
    ∃ x', cfb8Xor c false x m dst src =
      .ok (m.write dst.ptr (Spec.cfbSeg c.E iv (chunks 1 (m.read src.ptr src.len))).flatten, x') := by
  obtain ⟨rfl, hl⟩ := segNew_ok c hnew
  obtain ⟨x', e, _⟩ := (cfb8_ok c false).call (t := x) ⟨rfl, hl⟩ m dst src h2 h3
  exact ⟨x', by rw [cfb8Xor, e, cfb8F_spec c x hl]⟩

example : ∃ m' x', cfb8Xor toy2 false [7, 8] (fun a => BitVec.ofNat 8 a) ⟨1, 3, 3⟩ ⟨1, 3, 3⟩ = .ok (m', x') ∧
    m'.read 0 5 = [0, 8, 11, 15, 4] := by
  refine ⟨_, _, rfl, ?_⟩
  decide

/-- C20: the decrypter undoes any history of the encrypter. -/
theorem C20_cfb8_roundtrip (iv x : Bytes) (hnew : segNew c iv = .ok x)
    {A B : Slice → Slice → Prop} {ins outs ins' outs' : List Bytes} {x1 x2 : Bytes}
    (he : Calls A (cfb8Xor c false) x ins outs x1) (hd : Calls B (cfb8Xor c true) x ins' outs' x2)
    (h : ins'.flatten = outs.flatten) : outs'.flatten = ins.flatten := by
  obtain ⟨rfl, hl⟩ := segNew_ok c hnew
  exact (cfb8_ok c false).undo (cfb8_ok c true) (bRun_append _) (bRun_append _)
    (fun a => (cfb8_roundtrip c a x).1) ⟨rfl, hl⟩ ⟨rfl, hl⟩ he hd h

example : ∃ outs x1, Calls (fun _ _ => True) (cfb8Xor toy2 false) [7, 8] [[1], [2, 3, 4]] outs x1 :=
  (cfb8_ok toy2 false).calls_exist _ _ _ ⟨rfl, rfl⟩

/-- C20: exactly which calls panic, in every reachable state. -/
theorem C20_cfb8_panics_iff (dec : Bool) (iv x : Bytes) (hnew : segNew c iv = .ok x)
    {A : Slice → Slice → Prop} {ins outs : List Bytes} {x1 : Bytes} (he : Calls A (cfb8Xor c dec) x ins outs x1)
    (m : Mem) (dst src : Slice) :
    (cfb8Xor c dec x1 m dst src = .panic ↔ (dst.len < src.len ∨ ¬ NoPartialOverlap dst src)) ∧
    cfb8Xor c dec x1 m dst src ≠ .hang ∧ cfb8Xor c dec x1 m dst src ≠ .err := by
  obtain ⟨rfl, hl⟩ := segNew_ok c hnew
  exact (cfb8_ok c dec).panics_iff
    ((cfb8_ok c dec).calls (fun _ => True) (fun t a b _ => bRun_append _ t a b) ⟨rfl, hl⟩ he (fun _ _ => trivial)).2
    m dst src

/-- C29 for CFB8. -/
theorem C29_cfb8_pieces (dec : Bool) (iv x : Bytes) (hnew : segNew c iv = .ok x)
    {A B : Slice → Slice → Prop} {ins outs ins' outs' : List Bytes} {x1 x2 : Bytes}
    (h1 : Calls A (cfb8Xor c dec) x ins outs x1) (h2 : Calls B (cfb8Xor c dec) x ins' outs' x2)
    (h : ins.flatten = ins'.flatten) : outs.flatten = outs'.flatten := by
  obtain ⟨rfl, hl⟩ := segNew_ok c hnew
  exact (cfb8_ok c dec).pieces (fun _ => True) (fun t a b _ => bRun_append _ t a b) ⟨rfl, hl⟩ h1
    (fun _ _ => trivial) h2 (fun _ _ => trivial) h

/-! ### C21 CFB16, CFB32, CFB64 (`seg` = 2, 4, 8) -/

/-- C21, only for ciphers whose block is exactly two segments: one encryption writes the s-bit CFB ciphertext
of SP 800-38A.  Missing: other block sizes, where it is false (`C21_cfbSeg_violated`). -/
theorem C21_cfbSeg_encrypt_spec_partial (seg : Nat) (hseg : 0 < seg) (hbs : c.bs = 2 * seg)
    (iv x : Bytes) (hnew : segNew c iv = .ok x) (m : Mem) (dst src : Slice)
    (h2 : src.len ≤ dst.len) (h3 : NoPartialOverlap dst src) :
    ∃ x', cfbSegXor c seg false x m dst src =
      .ok (m.write dst.ptr (Spec.cfbSeg c.E iv (chunks seg (m.read src.ptr src.len))).flatten, x') := by
  obtain ⟨rfl, hl⟩ := segNew_ok c hnew
  obtain ⟨x', e, _⟩ := (cfbSeg_ok c seg hseg (by omega) false).call (t := x) ⟨rfl, hl⟩ m dst src h2 h3
  exact ⟨x', by rw [cfbSegXor, e, cfbSegF_spec c seg hseg hbs x hl]⟩

example : (toyCipher 16 (by decide)).bs = 2 * 8 ∧ (toyCipher 8 (by decide)).bs = 2 * 4 := by decide

/-- What CFB64 with an 8-byte cipher (DES, Blowfish, …), and in general any segment as long as the block,
really is: every block is XORed with the same `E(IV)`, i.e. a repeating pad. -/
theorem C21_cfbSeg_full_block_is_repeating_pad (dec : Bool) (iv x : Bytes) (hnew : segNew c iv = .ok x)
    (m : Mem) (dst src : Slice) (h2 : src.len ≤ dst.len) (h3 : NoPartialOverlap dst src) :
    ∃ x', cfbSegXor c c.bs dec x m dst src = .ok (m.write dst.ptr
      ((chunks c.bs (m.read src.ptr src.len)).map (fun p => xorb p (c.E iv))).flatten, x') := by
  obtain ⟨rfl, hl⟩ := segNew_ok c hnew
  obtain ⟨x', e, _⟩ := (cfbSeg_ok c c.bs c.bs_pos (Nat.le_refl _) dec).call (t := x) ⟨rfl, hl⟩ m dst src h2 h3
  exact ⟨x', by rw [cfbSegXor, e, cfbSegF_stuck_run c dec x hl]⟩

/-- C21: the decrypter fed the pieces the encrypter produced restores the plaintext. -/
theorem C21_cfbSeg_roundtrip (seg : Nat) (hseg : 0 < seg) (hle : seg ≤ c.bs) (iv x : Bytes)
    (hnew : segNew c iv = .ok x) {A B : Slice → Slice → Prop} {ins outs outs' : List Bytes} {x1 x2 : Bytes}
    (he : Calls A (cfbSegXor c seg false) x ins outs x1)
    (hd : Calls B (cfbSegXor c seg true) x outs outs' x2) : outs' = ins := by
  obtain ⟨rfl, hl⟩ := segNew_ok c hnew
  refine calls_same_roundtrip (cfbSeg_ok c seg hseg hle false) (cfbSeg_ok c seg hseg hle true)
    (fun a b => a = b ∧ a.length = c.bs) ?_ he hd x x ⟨rfl, hl⟩ ⟨rfl, hl⟩ ⟨rfl, hl⟩
  rintro t _ y ⟨rfl, ht⟩
  exact cfbSeg_roundtrip c seg hseg hle y t ht

example : ∃ outs x1, Calls (fun _ _ => True) (cfbSegXor (toyCipher 4 (by decide)) 2 false) [7, 8, 9, 10]
    [[1], [2, 3, 4]] outs x1 :=
  (cfbSeg_ok (toyCipher 4 (by decide)) 2 (by decide) (by decide) false).calls_exist _ _ _ ⟨rfl, rfl⟩

/-- C21: exactly which calls panic, when the segment is not longer than the block. -/
theorem C21_cfbSeg_panics_iff (seg : Nat) (hseg : 0 < seg) (hle : seg ≤ c.bs) (dec : Bool) (iv x : Bytes)
    (hnew : segNew c iv = .ok x) (m : Mem) (dst src : Slice) :
    (cfbSegXor c seg dec x m dst src = .panic ↔ (dst.len < src.len ∨ ¬ NoPartialOverlap dst src)) ∧
    cfbSegXor c seg dec x m dst src ≠ .hang ∧ cfbSegXor c seg dec x m dst src ≠ .err := by
  obtain ⟨rfl, hl⟩ := segNew_ok c hnew
  exact (cfbSeg_ok c seg hseg hle dec).panics_iff (t := x) ⟨rfl, hl⟩ m dst src

/-- C21: with a segment longer than the block, every source longer than the block panics although the
constructor accepted the cipher. -/
theorem C21_cfbSeg_long_segment_panics (seg : Nat) (hlt : c.bs < seg) (dec : Bool) (iv x : Bytes)
    (hnew : segNew c iv = .ok x) (m : Mem) (dst src : Slice) (hsrc : c.bs < src.len) :
    cfbSegXor c seg dec x m dst src = .panic := by
  obtain ⟨rfl, hl⟩ := segNew_ok c hnew
  unfold cfbSegXor xorKeyStream
  split
  · rfl
  · split
    · rfl
    · obtain ⟨k, hk⟩ : ∃ k, src.len = k + 1 := ⟨src.len - 1, by omega⟩
      rw [hk, segLoop, if_neg (by omega), cfbSeg_panic c seg hlt dec _ x m _ _ _ hl (by omega)]
      rfl

/-- C21 does not hold: for CFB16 with a 16-byte cipher (e.g. AES) the output is not SP 800-38A CFB-16. -/
theorem C21_cfbSeg_violated : ∃ (c : BlockCipher) (iv x : Bytes) (m m' : Mem) (dst src : Slice) (x' : Bytes),
    c.bs = 16 ∧ segNew c iv = .ok x ∧ cfbSegXor c 2 false x m dst src = .ok (m', x') ∧
    m'.read dst.ptr src.len ≠ (Spec.cfbSeg c.E iv (chunks 2 (m.read src.ptr src.len))).flatten := by
  refine ⟨toyCipher 16 (by decide), List.replicate 16 0, List.replicate 16 0, fun _ => 0, _, ⟨0, 6, 6⟩,
    ⟨0, 6, 6⟩, _, rfl, by decide, rfl, ?_⟩
  decide +kernel

/-- C29 holds for CFB16/32/64 when every call but the last feeds whole segments.  Missing: other splits
(`C29_cfbSeg_violated`). -/
theorem C29_cfbSeg_pieces_partial (seg : Nat) (hseg : 0 < seg) (hle : seg ≤ c.bs) (dec : Bool) (iv x : Bytes)
    (hnew : segNew c iv = .ok x) {A B : Slice → Slice → Prop} {ins outs ins' outs' : List Bytes} {x1 x2 : Bytes}
    (h1 : Calls A (cfbSegXor c seg dec) x ins outs x1) (hi : ∀ i ∈ ins.dropLast, seg ∣ i.length)
    (h2 : Calls B (cfbSegXor c seg dec) x ins' outs' x2) (hi' : ∀ i ∈ ins'.dropLast, seg ∣ i.length)
    (h : ins.flatten = ins'.flatten) : outs.flatten = outs'.flatten := by
  obtain ⟨rfl, hl⟩ := segNew_ok c hnew
  exact (cfbSeg_ok c seg hseg hle dec).pieces (fun i => seg ∣ i.length)
    (fun t a b ha => blkRun_append seg hseg _ t a b ha) ⟨rfl, hl⟩ h1 hi h2 hi' h

/-- C29 does not hold for CFB32: two calls of 1 and 3 bytes differ from one call of 4 bytes. -/
theorem C29_cfbSeg_violated : ∃ (c : BlockCipher) (iv x : Bytes) (m m1 m2 m3 : Mem) (x1 x2 x3 : Bytes),
    segNew c iv = .ok x ∧
    cfbSegXor c 4 false x m ⟨0, 1, 1⟩ ⟨0, 1, 1⟩ = .ok (m1, x1) ∧
    cfbSegXor c 4 false x1 m1 ⟨1, 3, 3⟩ ⟨1, 3, 3⟩ = .ok (m2, x2) ∧
    cfbSegXor c 4 false x m ⟨0, 4, 4⟩ ⟨0, 4, 4⟩ = .ok (m3, x3) ∧ m2.read 0 4 ≠ m3.read 0 4 := by
  refine ⟨toyCipher 8 (by decide), [1, 2, 3, 4, 5, 6, 7, 8], _, fun _ => 0, _, _, _, _, _, _, rfl, rfl, rfl, rfl, ?_⟩
  decide +kernel

end Verif.Mode
