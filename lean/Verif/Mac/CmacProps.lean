import Verif.Mac.Lemmas
/-
Property C44 : the hash/cmac object computes CMAC of whatever has been written since the last Reset, however the
message was cut into `Write` calls and however often `Sum` was called.
-/
namespace Verif.Mac

/-- `NewWithTagSize` succeeds exactly for tag sizes from 1 to the block size and block sizes of 64, 128, 256, 512 or
1024 bits, and reports an error otherwise. -/
theorem C44_new_ok_iff (c : BlockCipher) (ts : Int) :
    (cmacNew c ts = .err ∨ ∃ o, cmacNew c ts = .ok o) ∧
    ((∃ o, cmacNew c ts = .ok o) ↔ 1 ≤ ts ∧ ts ≤ c.bs ∧ (c.bs = 8 ∨ c.bs = 16 ∨ c.bs = 32 ∨ c.bs = 64 ∨ c.bs = 128)) := by
  unfold cmacNew
  by_cases h : ts ≤ 0 ∨ ts > c.bs
  · rw [if_pos h]
    refine ⟨.inl rfl, ?_⟩
    constructor
    · rintro ⟨o, ho⟩; simp at ho
    · rintro ⟨h1, h2, -⟩; omega
  · rw [if_neg h]
    by_cases hb : c.bs = 8 ∨ c.bs = 16 ∨ c.bs = 32 ∨ c.bs = 64 ∨ c.bs = 128
    · obtain ⟨p, hp⟩ : ∃ p, cmacP c.bs = some p := by
        rcases hb with hb | hb | hb | hb | hb <;> rw [hb] <;> exact ⟨_, rfl⟩
      rw [hp]
      exact ⟨.inr ⟨_, rfl⟩, ⟨fun _ => ⟨by omega, by omega, hb⟩, fun _ => ⟨_, rfl⟩⟩⟩
    · have hp : cmacP c.bs = none := by
        unfold cmacP; split <;> simp_all
      rw [hp]
      refine ⟨.inl rfl, ?_⟩
      constructor
      · rintro ⟨o, ho⟩; simp at ho
      · rintro ⟨_, _, h3⟩; exact absurd h3 hb

/-- For every supported block size, every history of `Write`, `Sum` and `Reset` calls on a new object returns normally
and every `Sum(p)` returns `p` followed by the (truncated) CMAC of the bytes written since the last `Reset` — with the
low byte of the reduction constant. For 64- and 128-bit blocks that is the standard's constant (see `C44_history`). -/
theorem C44_history_partial (c : BlockCipher) (ts : Int) (d : Cmac) (s : CmacSt) (h : cmacNew c ts = .ok (d, s)) (ops : List Hash.Op) :
    ∃ r, Spec.reduction c.bs = some r ∧ ∃ s', (cmacObj c d).run s ops =
      .ok (s', Hash.expected (fun M => (Spec.cmac c.E c.bs (r % 256) M).take ts.toNat) [] ops) := by
  obtain ⟨h1, h2, h3⟩ := (C44_new_ok_iff c ts).2.mp ⟨_, h⟩
  have hpow : ∃ k, c.bs = 2 ^ k := by
    rcases h3 with h | h | h | h | h
    · exact ⟨3, h⟩
    · exact ⟨4, h⟩
    · exact ⟨5, h⟩
    · exact ⟨6, h⟩
    · exact ⟨7, h⟩
  obtain ⟨p, hp, hp'⟩ : ∃ p, cmacP c.bs = some p ∧ Spec.reduction c.bs = some p := by
    rcases h3 with hb | hb | hb | hb | hb <;> rw [hb] <;> exact ⟨_, rfl, rfl⟩
  refine ⟨p, hp', ?_⟩
  have hz : (List.replicate c.bs (0 : Byte)).length = c.bs := by simp
  have hE : (c.E (List.replicate c.bs 0)).length = c.bs := c.lenE _ hz
  have e1 : dblM p (c.E (List.replicate c.bs 0)) = Spec.dbl c.bs (p % 256) (c.E (Spec.zero c.bs)) := by
    rw [dblM_eq _ _ (by rw [hE]; exact c.bs_pos), hE]; rfl
  have l1 : (Spec.dbl c.bs (p % 256) (c.E (Spec.zero c.bs))).length = c.bs := dbl_length _ _ _
  have e2 : dblM p (Spec.dbl c.bs (p % 256) (c.E (Spec.zero c.bs))) =
      Spec.dbl c.bs (p % 256) (Spec.dbl c.bs (p % 256) (c.E (Spec.zero c.bs))) := by
    rw [dblM_eq _ _ (by rw [l1]; exact c.bs_pos), l1]
  unfold cmacNew at h
  rw [if_neg (by omega), hp] at h
  simp only [e1, e2, Res.ok.injEq, Prod.mk.injEq] at h
  obtain ⟨rfl, rfl⟩ := h
  obtain ⟨s', e, -⟩ := Hash.Obj.run_of_sim
    (cmacObj c ⟨Spec.dbl c.bs (p % 256) (c.E (Spec.zero c.bs)),
      Spec.dbl c.bs (p % 256) (Spec.dbl c.bs (p % 256) (c.E (Spec.zero c.bs))), ts.toNat⟩)
    (fun M => (Spec.cmac c.E c.bs (p % 256) M).take ts.toNat)
    (fun s M => CmacHolds c s M ∧ s.buf.length = c.bs)
    (by
      rintro s M x ⟨hs, -⟩
      have := cmac_write hpow s M x hs
      refine ⟨_, rfl, this, ?_⟩
      obtain ⟨A, T, _, hA, _, _, _, hbuf⟩ := this
      rw [hbuf, xorInto_length]
      exact cbc_length _ _ hz hA)
    (by
      rintro s M q ⟨hs, hl⟩
      exact ⟨s, by simp only [cmacObj]; rw [cmac_sum _ _ _ hs], hs, hl⟩)
    (by
      rintro s M ⟨_, hl⟩
      refine ⟨⟨[], [], rfl, by simp, by simp, fun _ => rfl, rfl, ?_⟩, ?_⟩
      · show List.replicate s.buf.length 0 = _
        rw [hl, xorInto_nil]; rfl
      · show (List.replicate s.buf.length (0 : Byte)).length = _
        rw [hl]; simp)
    ops ⟨List.replicate c.bs 0, 0⟩ []
    ⟨⟨[], [], rfl, by simp, by simp, fun _ => rfl, rfl, by rw [xorInto_nil]; rfl⟩, hz⟩
  exact ⟨s', e⟩

/-- For block ciphers with 64- or 128-bit blocks: every history of `Write`, `Sum` and `Reset` calls returns the CMAC of
NIST SP 800-38B / RFC 4493. -/
theorem C44_history (c : BlockCipher) (hc : c.bs = 8 ∨ c.bs = 16) (ts : Int) (d : Cmac) (s : CmacSt)
    (h : cmacNew c ts = .ok (d, s)) (ops : List Hash.Op) :
    ∃ r, Spec.reduction c.bs = some r ∧ ∃ s', (cmacObj c d).run s ops =
      .ok (s', Hash.expected (fun M => (Spec.cmac c.E c.bs r M).take ts.toNat) [] ops) := by
  obtain ⟨r, hr, s', e⟩ := C44_history_partial c ts d s h ops
  refine ⟨r, hr, s', ?_⟩
  have : r % 256 = r := by
    rcases hc with hc | hc <;> rw [hc] at hr <;> (have := Option.some.inj hr; subst this; rfl)
  rw [this] at e; exact e

/-- With 128-bit blocks this is the OMAC1 used by the specification of EAX and SIV. -/
theorem C44_cmac_is_omac (E : Bytes → Bytes) (M : Bytes) : Spec.cmac E 16 0x87 M = Aead.Spec.omac E M := by
  unfold Spec.cmac Aead.Spec.omac Spec.Whole
  rfl

/-- `Verify` accepts exactly the tag of the message, and nothing when the parameters are unusable. -/
theorem C44_verify_iff (c : BlockCipher) (hc : c.bs = 8 ∨ c.bs = 16) (mac msg : Bytes) (ts : Int) :
    cmacVerify mac msg c ts = true ↔
      1 ≤ ts ∧ ts ≤ c.bs ∧ ∃ r, Spec.reduction c.bs = some r ∧ mac = (Spec.cmac c.E c.bs r msg).take ts.toNat := by
  unfold cmacVerify cmacSum
  by_cases h : 1 ≤ ts ∧ ts ≤ c.bs
  · obtain ⟨⟨d, s⟩, ho⟩ := (C44_new_ok_iff c ts).2.mpr ⟨h.1, h.2, by omega⟩
    obtain ⟨r, hr, s', e⟩ := C44_history c hc ts d s ho [.write msg, .sum []]
    rw [ho]
    have hw : (cmacObj c d).write s msg = .ok (cmacWrite c s msg) := rfl
    have hs : (cmacObj c d).sum (cmacWrite c s msg) [] = .ok (cmacWrite c s msg, [] ++ cmacCheckSum c d (cmacWrite c s msg)) := rfl
    simp only [Hash.Obj.run, hw, hs, Res.bind_ok, Hash.expected, List.nil_append, Res.ok.injEq, Prod.mk.injEq,
      List.cons.injEq, and_true] at e
    simp only [Res.bind_ok, hw, hs, List.nil_append, e.2, beq_iff_eq]
    constructor
    · intro hm; exact ⟨h.1, h.2, r, hr, hm⟩
    · rintro ⟨_, _, r', hr', hm⟩
      rw [hr] at hr'; have := Option.some.inj hr'; subst this; exact hm
  · have : cmacNew c ts = .err := by
      rcases (C44_new_ok_iff c ts).1 with h' | h'
      · exact h'
      · have := (C44_new_ok_iff c ts).2.mp h'
        exact absurd ⟨this.1, this.2.1⟩ h
    rw [this]
    constructor
    · intro hm; simp at hm
    · rintro ⟨h1, h2, -⟩; exact absurd ⟨h1, h2⟩ h

/-- A cipher with 32-byte blocks (`E(x) = x ⊕ 80 00 … 00`). -/
def cipher32 : BlockCipher := xorCipher (0x80 :: List.replicate 31 0) (by decide)

/-- For 256-bit blocks the code keeps only the low byte of the reduction constant 0x425, so its tag of the empty
message is not the CMAC value. -/
theorem C44_256_violated : ∃ c : BlockCipher, c.bs = 32 ∧
    cmacSum [] c 32 ≠ .ok (Spec.cmac c.E 32 0x425 []) ∧ (cmacSum [] c 32 = .ok (Spec.cmac c.E 32 0x25 [])) := by
  refine ⟨cipher32, rfl, ?_, ?_⟩ <;> decide +kernel

/- The hypotheses are met: a history on a toy cipher with 8-byte blocks, the message cut across block boundaries,
`Sum` in the middle and a second message after `Reset`. -/
example : (match cmacNew (toyCipher 8 (by decide)) 4 with
    | .ok (d, s) => (cmacObj (toyCipher 8 (by decide)) d).outputs s
      [.write [1, 2, 3], .sum [9], .write [4, 5, 6, 7, 8], .sum [], .write [1, 2, 3, 4, 5, 6, 7, 8, 9], .sum [], .reset, .sum []]
    | _ => none) =
    some (Hash.expected (fun M => (Spec.cmac (toyCipher 8 (by decide)).E 8 0x1b M).take 4) []
      [.write [1, 2, 3], .sum [9], .write [4, 5, 6, 7, 8], .sum [], .write [1, 2, 3, 4, 5, 6, 7, 8, 9], .sum [], .reset, .sum []]) := by
  decide +kernel

example : cmacVerify (Spec.cmac (toyCipher 8 (by decide)).E 8 0x1b [1, 2, 3]) [1, 2, 3] (toyCipher 8 (by decide)) 8 = true := by
  decide +kernel

end Verif.Mac
