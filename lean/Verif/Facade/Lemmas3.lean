import Verif.Facade.Lemmas2
namespace Verif.Facade
open Verif.Mode Verif.Padding Verif.Aead

theorem nilS_valid (h : Heap) : nilS.Valid h := ⟨Nat.le_refl _, Nat.zero_le _⟩

theorem apart_nil (n : Nat) (x : Slice) : Apart nilS n x := by
  unfold Apart nilS
  intro hn
  simp only at hn
  omega

theorem appended_nil_bytes {h h' : Heap} {X : Bytes} {r : Slice} (a : Appended h nilS X h' r) : h'.bytes r = X := by
  rw [a.bytes]; rfl

theorem appended_nil_frame {h h' : Heap} {X : Bytes} {r : Slice} (a : Appended h nilS X h' r) : ∀ b, b < h.brk → h'.mem b = h.mem b := by
  intro b hb
  refine a.frame b hb (fun hx => ?_)
  simp only [nilS] at hx ⊢
  omega

/-- The nonce and tag sizes CCM uses. -/
def ccmNs (o : Opt) : Int := if o.nonceSize > 0 then o.nonceSize else 12
def ccmTs (o : Opt) : Int := if o.tagSize > 0 then o.tagSize else 16

theorem ccmNewOpt_eq (c : BlockCipher) (o : Opt) : ccmNewOpt c o.nonceSize o.tagSize = ccmNew c (ccmNs o) (ccmTs o) := by
  unfold ccmNewOpt ccmNs ccmTs
  by_cases h1 : o.nonceSize > 0 <;> by_cases h2 : o.tagSize > 0 <;> simp [h1, h2]

theorem ccmSeal_len {c : BlockCipher} {x : Ccm} {h : Heap} {dst nonce pt ad : Slice} {h' : Heap} {r : Slice}
    (e : ccmSeal c x h dst nonce pt ad = .ok (h', r)) : r.len = dst.len + pt.len + x.tagSize ∧ (dst.cap < dst.len + pt.len + x.tagSize → h.brk ≤ r.ptr) := by
  unfold ccmSeal at e
  split at e
  · cases e
  split at e
  · cases e
  simp only at e
  split at e
  · cases e
  obtain ⟨m, -, e⟩ : ∃ m, ctrXor c (ccmCounter1 (ccmCounter x.nonceSize ((sliceForAppend h dst (pt.len + x.tagSize)).1.bytes nonce)))
      (sliceForAppend h dst (pt.len + x.tagSize)).1.mem (sliceForAppend h dst (pt.len + x.tagSize)).2.2 pt = .ok m ∧
      (Res.ok (_, (sliceForAppend h dst (pt.len + x.tagSize)).2.1) : Res (Heap × Slice)) = .ok (h', r) := by
    cases hc : ctrXor c (ccmCounter1 (ccmCounter x.nonceSize ((sliceForAppend h dst (pt.len + x.tagSize)).1.bytes nonce)))
      (sliceForAppend h dst (pt.len + x.tagSize)).1.mem (sliceForAppend h dst (pt.len + x.tagSize)).2.2 pt with
    | ok m => rw [hc, Res.bind_ok] at e; exact ⟨m, rfl, e⟩
    | err => rw [hc] at e; cases e
    | panic => rw [hc] at e; cases e
    | hang => rw [hc] at e; cases e
  cases e
  unfold sliceForAppend
  split
  · exact ⟨by simp; omega, fun hh => by omega⟩
  · exact ⟨by simp; omega, fun _ => by simp⟩

theorem modeOK_ccm {env : Env} {c : BlockCipher} {o : Opt} {h : Heap} {p : Slice} (hmd : o.mode = .ccm) (vp : p.Valid h) (vo : o.Valid h)
    {h' : Heap} {ct : Slice} (e : modeEnc env c o h p = .ok (h', ct)) : ModeOK env c o h p h' ct := by
  unfold modeEnc at e
  rw [hmd] at e
  simp only at e
  rw [ccmNewOpt_eq] at e
  cases hx : ccmNew c (ccmNs o) (ccmTs o) with
  | err => rw [hx] at e; cases e
  | panic => rw [hx] at e; cases e
  | hang => rw [hx] at e; cases e
  | ok x =>
    rw [hx, Res.bind_ok] at e
    have hnp := mt (C32_seal_panics_iff hx h nilS o.iv p o.additional vp).2 (by rw [e]; simp)
    have hn : (o.iv.len : Int) = ccmNs o := by
      by_contra hne; exact hnp (Or.inl hne)
    have hfit : CcmFits (ccmNs o) (ccmTs o) p.len := by
      by_contra hne; exact hnp (Or.inr (Or.inl hne))
    obtain ⟨h1, r1, e1, a1⟩ := C32_seal_spec hx h nilS o.iv p o.additional (nilS_valid h) vo.iv vp vo.additional hn hfit
      (apart_nil _ _) (apart_nil _ _) (apart_nil _ _)
    have hlen := ccmSeal_len e
    rw [e] at e1
    cases e1
    have k := ccmNew_ok hx
    have hts : (ccmTs o).toNat = x.tagSize := by have := k.ts; omega
    have hts2 : x.tagSize = extra c o := by
      rw [← hts]; unfold ccmTs extra; rw [hmd]
      split <;> rfl
    refine ⟨a1.valid, a1.brk, ?_, appended_nil_frame a1, ?_, ?_⟩
    · by_cases hz : ct.len = 0
      · exact Or.inr hz
      · refine Or.inl (hlen.2 ?_)
        have := hlen.1
        simp only [nilS] at this ⊢; omega
    · rw [hlen.1, hts2]; simp [nilS]
    · intro env' h2 o2 ct2 _ _ vo2 vct2 same hct
      rw [appended_nil_bytes a1] at hct
      unfold modeDec
      rw [same.mode, hmd]
      simp only
      rw [same.nonceSize, same.tagSize, ccmNewOpt_eq, hx]
      simp only
      have hn2 : o2.iv.len = o.iv.len := by
        have := congrArg List.length same.iv; simpa [bytes_length] using this
      obtain ⟨h3, r, e3, a3⟩ := C32_open_accepts hx h2 nilS o2.iv ct2 o2.additional (nilS_valid h2) vo2.iv vct2 vo2.additional
        (by rw [hn2]; exact hn) (h.bytes p) (by rw [bytes_length]; exact hfit) (by rw [hct, same.iv, same.additional])
        (Or.inl (apart_nil _ _)) (apart_nil _ _) (apart_nil _ _)
      rw [e3]
      exact ⟨h3, r, rfl, a3.valid, appended_nil_bytes a3⟩

theorem gcmNew_tag {c : BlockCipher} {o : Opt} {x : Nat × Nat} (hmd : o.mode = .gcm) (e : gcmNew c o.nonceSize o.tagSize = .ok x) :
    x.2 = extra c o := by
  unfold gcmNew at e
  unfold extra
  rw [hmd]
  simp only
  split at e
  · rename_i h1
    rw [if_pos h1]
    split at e
    · cases e
    · split at e
      · cases e
      · cases e; rfl
  · rename_i h1
    rw [if_neg h1]
    split at e
    · split at e
      · cases e
      · cases e; rfl
    · split at e
      · cases e
      · cases e; rfl

theorem modeOK_gcm {env : Env} {c : BlockCipher} {o : Opt} {h : Heap} {p : Slice} (hmd : o.mode = .gcm)
    {h' : Heap} {ct : Slice} (e : modeEnc env c o h p = .ok (h', ct)) : ModeOK env c o h p h' ct := by
  unfold modeEnc at e
  rw [hmd] at e
  simp only at e
  cases hx : gcmNew c o.nonceSize o.tagSize with
  | err => rw [hx] at e; cases e
  | panic => rw [hx] at e; cases e
  | hang => rw [hx] at e; cases e
  | ok x =>
    rw [hx, Res.bind_ok] at e
    split at e
    · cases e
    · rename_i h1
      split at e
      · cases e
      · rename_i h2
        have hl := env.gcm.seal_length c x.2 (h.bytes o.iv) (h.bytes p) (h.bytes o.additional)
        cases e
        refine ⟨⟨Nat.le_refl _, Nat.le_refl _⟩, Nat.le_add_right _ _, Or.inl (Nat.le_refl _), fun a ha => Mem.write_of_lt _ _ _ _ ha, ?_, ?_⟩
        · simp only; rw [hl, bytes_length, gcmNew_tag hmd hx]
        · intro env' h2' o2 ct2 hg _ vo2 vct2 same hct
          rw [write_fresh_bytes] at hct
          unfold modeDec
          rw [same.mode, hmd]
          simp only
          have hn2 : o2.iv.len = o.iv.len := by
            have := congrArg List.length same.iv; simpa [bytes_length] using this
          rw [same.nonceSize, same.tagSize, hx, Res.bind_ok, hn2, if_neg h1, same.iv, same.additional, hct, hg,
            env.gcm.open_seal _ _ _ _ _ (by rw [bytes_length]; omega)]
          exact ⟨_, _, rfl, ⟨Nat.le_refl _, Nat.le_refl _⟩, write_fresh_bytes ..⟩

theorem modeOK_ocfb {env : Env} {c : BlockCipher} {o : Opt} {h : Heap} {p : Slice} (hmd : o.mode = .ocfb) (vp : p.Valid h)
    {h' : Heap} {ct : Slice} (e : modeEnc env c o h p = .ok (h', ct)) : ModeOK env c o h p h' ct := by
  unfold modeEnc at e
  rw [hmd] at e
  simp only at e
  cases hx : ocfbNewEnc c ((List.range c.bs).map env.rand) o.resync with
  | err => rw [hx] at e; cases e
  | panic => rw [hx] at e; cases e
  | hang => rw [hx] at e; cases e
  | ok xp =>
    obtain ⟨x, pfx⟩ := xp
    obtain ⟨l1, l2, e1, e2, hR⟩ := ocfbNewEnc_ok c hx
    rw [hx, Res.bind_ok] at e
    simp only at e
    obtain ⟨x', ex, -, hlen⟩ := (ocfb_ok c false).call hR (makeB h (p.len + (c.bs + 2))).1.mem
      ⟨(makeB h (p.len + (c.bs + 2))).2.ptr + (c.bs + 2), p.len, p.len⟩ p (Nat.le_refl _)
      (fresh_noOverlap vp _ _ _ (by simp [makeB])).noPartial
    rw [ocfbXor, ex, Res.bind_ok] at e
    rw [makeB_mem_read vp] at e hlen
    generalize hO : (bRun (cfbF c false) (if o.resync then (pfx.drop 2, [])
      else (bRun (cfbF c false) (zeroIV c, []) ((List.range c.bs).map env.rand ++ ((List.range c.bs).map env.rand).drop (c.bs - 2))).2)
      (h.bytes p)).1 = O at e hlen
    cases e
    have hct : (⟨((makeB h (p.len + (c.bs + 2))).1.mem.write ((makeB h (p.len + (c.bs + 2))).2.ptr + (c.bs + 2)) O).write
        (makeB h (p.len + (c.bs + 2))).2.ptr pfx, (makeB h (p.len + (c.bs + 2))).1.brk⟩ : Heap).bytes (makeB h (p.len + (c.bs + 2))).2 =
        pfx ++ O := by
      unfold Heap.bytes
      simp only [makeB]
      rw [Nat.add_comm p.len, Mem.read_append, Mem.read_write_self' _ _ _ _ e2,
        Mem.read_write_disjoint _ _ _ _ _ (by omega), Mem.read_write_self' _ _ _ _ hlen]
    refine ⟨⟨Nat.le_refl _, by simp [makeB]⟩, by simp [makeB], by simp [makeB], ?_, ?_, ?_⟩
    · intro a ha
      simp only [makeB]
      rw [Mem.write_of_lt _ _ _ _ ha, Mem.write_of_lt _ _ _ _ (by omega), Mem.write_of_lt _ _ _ _ ha]
    · simp [makeB, extra, hmd]
    · intro env' h2 o2 ct2 _ _ vo2 vct2 same hc2
      rw [hct] at hc2
      have hl2 : ct2.len = p.len + (c.bs + 2) := by
        have := congrArg List.length hc2
        rw [bytes_length, List.length_append, e2, hlen] at this; omega
      obtain ⟨r1, r2⟩ := cfb_byte_roundtrip c ((List.range c.bs).map env.rand ++ ((List.range c.bs).map env.rand).drop (c.bs - 2)) (zeroIV c, [])
      rw [← e1] at r1 r2
      have hpl : ocfbPlain c pfx = (List.range c.bs).map env.rand ++ ((List.range c.bs).map env.rand).drop (c.bs - 2) := r1
      obtain ⟨y, hy, hRy⟩ := (ocfbNewDec_eq c pfx o.resync e2 l2).2 (by
        rw [hpl, List.take_left' l1, List.drop_left' l1])
      rw [hpl] at hy
      rw [← r2] at hRy
      have hpre : h2.mem.read ct2.ptr (c.bs + 2) = pfx := by
        have := congrArg (List.take (c.bs + 2)) hc2
        rw [List.take_left' e2] at this
        unfold Heap.bytes at this
        rw [Mem.read_take, hl2, Nat.min_eq_left (by omega)] at this
        exact this
      have hpost : h2.mem.read (ct2.ptr + (c.bs + 2)) p.len = O := by
        have := congrArg (List.drop (c.bs + 2)) hc2
        rw [List.drop_left' e2] at this
        unfold Heap.bytes at this
        rw [Mem.read_drop, hl2, Nat.add_sub_cancel] at this
        exact this
      unfold modeDec
      rw [same.mode, hmd]
      simp only
      rw [if_neg (by omega), hpre, same.resync, hy, Res.bind_ok, hl2, Nat.add_sub_cancel]
      simp only
      generalize hW : (List.range c.bs).map env.rand ++ ((List.range c.bs).map env.rand).drop (c.bs - 2) = W
      have hWl : W.length = c.bs + 2 := by rw [← hW]; simp; omega
      have v2 := vct2.1
      have v3 := vct2.2
      have vtail : (⟨ct2.ptr + (c.bs + 2), p.len, ct2.cap - (c.bs + 2)⟩ : Slice).Valid ⟨h2.mem.write ct2.ptr W, h2.brk⟩ := by
        refine ⟨?_, ?_⟩ <;> simp only <;> omega
      obtain ⟨y', ey, -, hylen⟩ := (ocfb_ok c true).call hRy (makeB ⟨h2.mem.write ct2.ptr W, h2.brk⟩ p.len).1.mem
        (makeB ⟨h2.mem.write ct2.ptr W, h2.brk⟩ p.len).2 ⟨ct2.ptr + (c.bs + 2), p.len, ct2.cap - (c.bs + 2)⟩ (Nat.le_refl _)
        (fresh_noOverlap vtail _ _ _ (Nat.le_refl _)).noPartial
      rw [ocfbXor, ey, Res.bind_ok]
      refine ⟨_, _, rfl, ⟨Nat.le_refl _, by simp [makeB]⟩, ?_⟩
      have hrd : (makeB ⟨h2.mem.write ct2.ptr W, h2.brk⟩ p.len).1.mem.read (ct2.ptr + (c.bs + 2)) p.len = O := by
        have := makeB_mem_read vtail p.len
        simp only at this
        rw [this]
        unfold Heap.bytes
        simp only
        rw [Mem.read_write_disjoint _ _ _ _ _ (by omega), hpost]
      simp only at hylen ⊢
      rw [hrd, ← hO, (cfb_byte_roundtrip c (h.bytes p) _).1]
      unfold Heap.bytes
      simp only [makeB]
      exact Mem.read_write_self' _ _ _ _ (by simp)

/-- Every successful mode call. -/
theorem modeOK {env : Env} {c : BlockCipher} {o : Opt} {h : Heap} {p : Slice} (hbs : c.bs < 512)
    (hh : o.mode = .hctr → c.bs = 16 ∧ env.conc ≠ some 0) (vp : p.Valid h) (vo : o.Valid h)
    {h' : Heap} {ct : Slice} (e : modeEnc env c o h p = .ok (h', ct)) : ModeOK env c o h p h' ct := by
  by_cases hs : SameLength o.mode = true
  · obtain ⟨a, b⟩ := modeOK_same (env := env) (p := p) hs hbs hh vp
    by_cases hf : Fits o.mode c.bs o.iv.len o.tweak.len o.hkey.len p.len
    · obtain ⟨h1, c1, e1, k⟩ := a hf
      rw [e] at e1; cases e1; exact k
    · rw [b hf] at e; cases e
  · cases hm : o.mode with
    | gcm => exact modeOK_gcm hm e
    | ccm => exact modeOK_ccm hm vp vo e
    | ocfb => exact modeOK_ocfb hm vp e
    | other => unfold modeEnc at e; rw [hm] at e; cases e
    | _ => rw [hm] at hs; exact absurd rfl hs

/-- A mode's `Decrypt` leaves all memory that existed before as it was, except for OCFB. -/
theorem modeDec_frame {env : Env} {c : BlockCipher} {o : Opt} {h : Heap} {p : Slice} (hbs : c.bs < 512)
    (hh : o.mode = .hctr → c.bs = 16 ∧ env.conc ≠ some 0) (hm : o.mode ≠ .ocfb) (vp : p.Valid h) (vo : o.Valid h)
    {h' : Heap} {d : Slice} (e : modeDec env c o h p = .ok (h', d)) :
    d.Valid h' ∧ h.brk ≤ h'.brk ∧ ∀ a, a < h.brk → h'.mem a = h.mem a := by
  by_cases hs : SameLength o.mode = true
  · obtain ⟨E, D, hed, hr⟩ := mode_pair' c (h.bytes o.iv) (h.bytes o.tweak) (h.bytes o.hkey) o.mode hs hbs (fun e => (hh e).1)
    obtain ⟨-, hD⟩ := hed env (fun e => (hh e).2)
    obtain ⟨e1, e2⟩ := into_eq (c := c) hD (fun x hx => (hr x hx).2.2) vp
    rw [modeDec_same hs] at e
    by_cases hf : Fits o.mode c.bs (h.bytes o.iv).length (h.bytes o.tweak).length (h.bytes o.hkey).length p.len
    · rw [e1 hf, Res.bind_ok] at e
      cases e
      exact ⟨by simp [Slice.Valid, makeB], by simp [makeB], fun a ha => Mem.write_of_lt _ _ _ _ ha⟩
    · rw [e2 hf] at e; cases e
  · cases hm' : o.mode with
    | gcm =>
      unfold modeDec at e
      rw [hm'] at e
      simp only at e
      cases hx : gcmNew c o.nonceSize o.tagSize with
      | err => rw [hx] at e; cases e
      | panic => rw [hx] at e; cases e
      | hang => rw [hx] at e; cases e
      | ok x =>
        rw [hx, Res.bind_ok] at e
        split at e
        · cases e
        · split at e
          · cases e
          · cases e
            exact ⟨⟨Nat.le_refl _, Nat.le_refl _⟩, Nat.le_add_right _ _, fun a ha => Mem.write_of_lt _ _ _ _ ha⟩
    | ccm =>
      unfold modeDec at e
      rw [hm'] at e
      simp only at e
      rw [ccmNewOpt_eq] at e
      cases hx : ccmNew c (ccmNs o) (ccmTs o) with
      | err => rw [hx] at e; cases e
      | panic => rw [hx] at e; cases e
      | hang => rw [hx] at e; cases e
      | ok x =>
        rw [hx] at e
        simp only at e
        have k := ccmNew_ok hx
        have hn : (o.iv.len : Int) = ccmNs o := by
          by_contra hne
          have : ccmOpen c x h nilS o.iv p o.additional = .panic := by
            unfold ccmOpen; rw [if_pos (by have := k.ns; omega)]
          rw [this] at e; cases e
        by_cases hex : ∃ P, CcmFits (ccmNs o) (ccmTs o) P.length ∧
            h.bytes p = Aead.Spec.ccm c.E (ccmTs o).toNat (h.bytes o.iv) P (h.bytes o.additional)
        · obtain ⟨P, hp, hct⟩ := hex
          obtain ⟨h3, r, e3, a3⟩ := C32_open_accepts hx h nilS o.iv p o.additional (nilS_valid h) vo.iv vp vo.additional
            hn P hp hct (Or.inl (apart_nil _ _)) (apart_nil _ _) (apart_nil _ _)
          rw [e3, Res.bind_ok] at e
          cases e
          exact ⟨a3.valid, a3.brk, appended_nil_frame a3⟩
        · obtain ⟨h3, e3, -⟩ := C32_open_rejects hx h nilS o.iv p o.additional (nilS_valid h) vo.iv vp vo.additional
            hn hex (Or.inl (apart_nil _ _)) (apart_nil _ _) (apart_nil _ _)
          rw [e3, Res.bind_ok] at e
          cases e
    | ocfb => exact absurd hm' hm
    | other => unfold modeDec at e; rw [hm'] at e; cases e
    | _ => rw [hm'] at hs; exact absurd rfl hs

end Verif.Facade
