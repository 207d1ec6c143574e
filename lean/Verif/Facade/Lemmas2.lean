import Verif.Facade.Lemmas
namespace Verif.Facade
open Verif.Mode Verif.Padding Verif.Aead

/-! Paddings -/

/-- The padded contents. -/
def padOut (env : Env) (pad : PadN) (text : Bytes) (bs : Int) : Bytes :=
  match pad with
  | .no | .other => text
  | .zero => zeroPad text bs
  | .pkcs5 => pkcs5Pad text bs
  | .pkcs7 => pkcs7Pad text bs
  | .x923 => x923Pad text bs
  | .iso10126 => iso10126Pad env.rnd text bs
  | .iso7816 | .iso97971 | .pboc2 => iso7816Pad text bs
  | .tbc => tbcPad text bs

theorem padM_none (env : Env) (pad : PadN) (h : Heap) (t : Slice) (bs : Int) : padM env pad h t bs = none ↔ pad = .other := by
  cases pad <;> simp [padM]

theorem padM_good {env : Env} {pad : PadN} {h : Heap} {text : Slice} {bs : Int} {r : Heap × Slice} (hv : text.Valid h)
    (e : padM env pad h text bs = some r) : Good h text (padOut env pad (h.bytes text) bs) r := by
  obtain ⟨g1, g2, g3, g4, g5, g6, g7, -⟩ := C10_only_spare_capacity env.slack env.rnd "" h text bs hv
  cases pad <;> simp only [padM, Option.some.injEq] at e
  all_goals first | subst e | cases e
  all_goals first | exact Good.refl h text hv | exact g1 | exact g2 | exact g3 | exact g4 | exact g5 | exact g6 | exact g7

theorem padOut_length (env : Env) (pad : PadN) (t : Bytes) (bs : Nat) (h1 : 1 ≤ bs) :
    (padOut env pad t bs).length = paddedLen pad bs t.length := by
  have hp := padSize_pos t.length bs h1
  have hs : ∀ k, 1 ≤ k → t.length + padSize t.length k = (t.length / k + 1) * k := by
    intro k hk
    have h1 := Nat.mod_lt t.length (show k > 0 by omega)
    have h2 := Nat.div_add_mod t.length k
    unfold padSize
    rw [Nat.add_mul, Nat.mul_comm (t.length / k) k]; omega
  have hb := hs bs h1
  have h8 := hs 8 (by omega)
  have hi : ¬ ((bs : Int) < 1) := by omega
  cases pad <;> simp only [padOut, paddedLen]
  · unfold zeroPad; rw [if_neg hi]; simpa using hb
  · unfold pkcs5Pad; simpa using h8
  · unfold pkcs7Pad; rw [if_neg hi]; simpa using hb
  · rw [x923Pad_eq t bs h1]; simp; omega
  · unfold iso10126Pad; rw [if_neg hi]; simp [randomBytes_length]; omega
  · rw [iso7816Pad_eq t bs h1]; simp; omega
  · rw [iso7816Pad_eq t bs h1]; simp; omega
  · rw [iso7816Pad_eq t bs h1]; simp; omega
  · rw [tbcPad_eq t bs h1]; simpa using hb

theorem unpad_padOut (env : Env) (pad : PadN) (t : Bytes) (bs : Nat) (h1 : 1 ≤ bs) (h2 : bs ≤ 255) (hpad : pad ≠ .other)
    (hz : pad = .zero → t.getLast? ≠ some 0) : unpad pad (padOut env pad t bs) = .ok t := by
  cases pad <;> simp only [unpad, padOut]
  · exact (C06_zero_roundtrip_iff t bs h1).2 (hz rfl)
  · exact (C01_pkcs5_roundtrip t bs).1
  · exact (C01_pkcs7_roundtrip t bs h1 h2).1
  · exact C03_x923_roundtrip t bs h1 h2
  · exact C04_iso10126_roundtrip env.rnd t bs h1 h2
  · exact C05_iso7816_roundtrip t bs h1
  · exact C05_iso7816_roundtrip t bs h1
  · exact C05_iso7816_roundtrip t bs h1
  · exact C07_tbc_roundtrip t bs h1
  · exact absurd rfl hpad

/-- What a padding removes is a final part: the result is a prefix of the argument, so returning `src[:n]` is right. -/
theorem unpad_prefix {pad : PadN} {s t : Bytes} (h : unpad pad s = .ok t) : t <+: s := by
  cases pad <;> simp only [unpad] at h
  · cases h; exact List.prefix_refl _
  · unfold zeroUnpad at h
    cases h
    obtain ⟨u, hu⟩ := List.dropWhile_suffix (fun b : Byte => b == 0) (l := s.reverse)
    refine ⟨u.reverse, ?_⟩
    rw [← List.reverse_append, hu, List.reverse_reverse]
  · rcases ((C02_pkcs5_unpad_iff s).2 t).1 h with ⟨⟨k, _, _, e⟩, _⟩ | ⟨e, _⟩
    · exact ⟨_, e.symm⟩
    · rw [e]
  · rcases ((C02_pkcs7_unpad_iff s).2 t).1 h with ⟨k, _, _, e⟩ | ⟨e, _⟩
    · exact ⟨_, e.symm⟩
    · rw [e]
  · rcases ((C03_x923_unpad_iff s).2 t).1 h with ⟨k, _, _, e⟩ | ⟨e, _⟩
    · rw [List.append_assoc] at e; exact ⟨_, e.symm⟩
    · rw [e]
  · rcases ((C04_iso10126_unpad_iff s).2 t).1 h with ⟨k, f, _, _, _, e⟩ | ⟨e, _⟩
    · rw [List.append_assoc] at e; exact ⟨_, e.symm⟩
    · rw [e]
  · obtain ⟨z, e⟩ := ((C05_iso7816_unpad_iff s).2 t).1 h; exact ⟨_, e.symm⟩
  · obtain ⟨z, e⟩ := ((C05_iso7816_unpad_iff s).2 t).1 h; exact ⟨_, e.symm⟩
  · obtain ⟨z, e⟩ := ((C05_iso7816_unpad_iff s).2 t).1 h; exact ⟨_, e.symm⟩
  · obtain ⟨k, _, e⟩ := ((C07_tbc_unpad_iff s).2 t).1 h; exact ⟨_, e.symm⟩
  · cases h

/-! Slices and fresh memory -/

theorem fresh_noOverlap {h : Heap} {p : Slice} (vp : p.Valid h) (d n k : Nat) (hd : h.brk ≤ d) : NoOverlap ⟨d, n, k⟩ p := by
  have := vp.1; have := vp.2
  unfold NoOverlap anyOverlap
  simp only [Bool.and_eq_false_iff, decide_eq_false_iff_not, gt_iff_lt]
  omega

theorem bytes_of_frame {h h' : Heap} {s : Slice} (v : s.Valid h) (hf : ∀ a, a < h.brk → h'.mem a = h.mem a) : h'.bytes s = h.bytes s := by
  have := v.1; have := v.2
  unfold Heap.bytes Mem.read
  apply List.map_congr_left
  intro i hi
  rw [List.mem_range] at hi
  exact hf _ (by omega)

theorem bytes_offSpare {h h' : Heap} {data s : Slice} (v : s.Valid h)
    (hf : FrameExcept h h' (data.ptr + data.len) (data.ptr + data.cap)) (off : OffSpare data s) : h'.bytes s = h.bytes s := by
  have := v.1; have := v.2
  unfold Heap.bytes Mem.read
  apply List.map_congr_left
  intro i hi
  rw [List.mem_range] at hi
  refine hf.2 _ (by omega) ?_
  rcases off with h | h | h <;> omega

theorem valid_mono {h h' : Heap} {s : Slice} (v : s.Valid h) (hb : h.brk ≤ h'.brk) : s.Valid h' := ⟨v.1, Nat.le_trans v.2 hb⟩

theorem Opt.Valid.mono {h h' : Heap} {o : Opt} (v : o.Valid h) (hb : h.brk ≤ h'.brk) : o.Valid h' :=
  ⟨valid_mono v.iv hb, valid_mono v.additional hb, valid_mono v.tweak hb, valid_mono v.hkey hb⟩

/-- What every mode guarantees. -/
structure ModeOK (env : Env) (c : BlockCipher) (o : Opt) (h : Heap) (p : Slice) (h' : Heap) (ct : Slice) : Prop where
  valid : ct.Valid h'
  brk : h.brk ≤ h'.brk
  fresh : h.brk ≤ ct.ptr ∨ ct.len = 0
  frame : ∀ a, a < h.brk → h'.mem a = h.mem a
  len : ct.len = p.len + extra c o
  undo : ∀ (env' : Env) (h2 : Heap) (o2 : Opt) (ct2 : Slice), env'.gcm = env.gcm → (o.mode = .hctr → env'.conc ≠ some 0) →
    o2.Valid h2 → ct2.Valid h2 → SameSettings h o h2 o2 → h2.bytes ct2 = h'.bytes ct →
    ∃ h3 d, modeDec env' c o2 h2 ct2 = .ok (h3, d) ∧ d.Valid h3 ∧ h3.bytes d = h.bytes p

theorem makeB_mem_read {h : Heap} {p : Slice} (vp : p.Valid h) (n : Nat) : (makeB h n).1.mem.read p.ptr p.len = h.bytes p := by
  unfold makeB Heap.bytes
  have := vp.1; have := vp.2
  exact Mem.read_write_disjoint _ _ _ _ _ (by omega)

/-- Result of a length-preserving mode in one line. -/
theorem into_eq {c : BlockCipher} {f : Mem → Slice → Slice → Res Mem} {fits : Nat → Prop} {E : Bytes → Bytes} (hi : Impl f fits E)
    (hE : ∀ x, fits x.length → (E x).length = x.length) {h : Heap} {p : Slice} (vp : p.Valid h) :
    (fits p.len → f (makeB h p.len).1.mem (makeB h p.len).2 p =
      .ok (h.mem.write h.brk (E (h.bytes p)))) ∧ (¬ fits p.len → f (makeB h p.len).1.mem (makeB h p.len).2 p = .panic) := by
  obtain ⟨a, b⟩ := hi (makeB h p.len).1.mem (makeB h p.len).2 p rfl (fresh_noOverlap vp _ _ _ (Nat.le_refl _))
  refine ⟨fun hf => ?_, b⟩
  rw [a hf, makeB_mem_read vp]
  have := hE (h.bytes p) (by rw [bytes_length]; exact hf)
  rw [bytes_length] at this
  simp only [makeB]
  rw [Mem.write_write_same _ _ _ _ (by simp [this])]

theorem modeEnc_same {env : Env} {c : BlockCipher} {o : Opt} {h : Heap} {p : Slice} (hmd : SameLength o.mode = true) :
    modeEnc env c o h p = (do
      let m ← encInto env c (h.bytes o.iv) (h.bytes o.tweak) (h.bytes o.hkey) o.mode (makeB h p.len).1.mem (makeB h p.len).2 p
      .ok (⟨m, (makeB h p.len).1.brk⟩, (makeB h p.len).2)) := by
  unfold modeEnc
  cases hm : o.mode <;> rw [hm] at hmd <;> first | rfl | cases hmd

theorem modeDec_same {env : Env} {c : BlockCipher} {o : Opt} {h : Heap} {p : Slice} (hmd : SameLength o.mode = true) :
    modeDec env c o h p = (do
      let m ← decInto env c (h.bytes o.iv) (h.bytes o.tweak) (h.bytes o.hkey) o.mode (makeB h p.len).1.mem (makeB h p.len).2 p
      .ok (⟨m, (makeB h p.len).1.brk⟩, (makeB h p.len).2)) := by
  unfold modeDec
  cases hm : o.mode <;> rw [hm] at hmd <;> first | rfl | cases hmd

theorem enc_any_env (env env' : Env) (c : BlockCipher) (iv tw hk : Bytes) (md : ModeN) (h : md = .hctr → env'.conc = env.conc) :
    decInto env' c iv tw hk md = decInto env c iv tw hk md := by
  cases md <;> first | rfl | (funext m d p; simp only [decInto, h rfl])

/-- The pair of functions of a length-preserving mode, the same for all environments. -/
theorem mode_pair' (c : BlockCipher) (iv tweak hkey : Bytes) (md : ModeN) (hmd : SameLength md = true) (hbs : c.bs < 512)
    (hh : md = .hctr → c.bs = 16) :
    ∃ E D, (∀ env : Env, (md = .hctr → env.conc ≠ some 0) →
      Impl (fun m d p => encInto env c iv tweak hkey md m d p) (Fits md c.bs iv.length tweak.length hkey.length) E ∧
      Impl (fun m d p => decInto env c iv tweak hkey md m d p) (Fits md c.bs iv.length tweak.length hkey.length) D) ∧
      ∀ x, Fits md c.bs iv.length tweak.length hkey.length x.length → (E x).length = x.length ∧ D (E x) = x ∧ (D x).length = x.length := by
  by_cases hm : md = .hctr
  · subst hm
    have h16 := hh rfl
    by_cases hk : tweak.length = 16 ∧ hkey.length = 16
    · obtain ⟨s0, hs0⟩ := (Hctr.C38_new_ok_iff c none tweak hkey).1.2 hk
      have hc0 := (Hctr.new_c hs0).1
      have hu : ∀ (env : Env) s, Hctr.new c env.conc tweak hkey = .ok s → Hctr.uhash s = Hctr.uhash s0 ∧ s.c = s0.c := by
        intro env s hs
        unfold Hctr.new at hs hs0
        split at hs
        · cases hs
        · rename_i a1
          rw [if_neg a1] at hs0
          cases hs; cases hs0
          exact ⟨rfl, rfl⟩
      refine ⟨Hctr.Spec.encryptH (Hctr.uhash s0) c.E, Hctr.Spec.decryptH (Hctr.uhash s0) c.E c.D, fun env hcn => ?_, ?_⟩
      · obtain ⟨s, hs⟩ := (Hctr.C38_new_ok_iff c env.conc tweak hkey).1.2 hk
        obtain ⟨ec, ecc, -⟩ := Hctr.new_c hs
        have h16' : s.c.bs = 16 := by rw [ec]; exact h16
        have hc' : s.conc ≠ some 0 := by rw [ecc]; exact hcn rfl
        have hus := (hu env s hs).1
        constructor
        · intro m d p hl ho
          simp only [encInto, hs, Res.bind_ok]
          refine ⟨fun hf => ?_, fun hf => ?_⟩
          · rw [Hctr.encrypt_eq s h16' hc' m d p hl hf.2.2 (apart_of_noOverlap ho hf.2.2), hus, ec]
          · unfold Hctr.encrypt
            rw [if_neg (by omega), if_pos (by simp only [Fits] at hf; omega)]
        · intro m d p hl ho
          simp only [decInto, hs, Res.bind_ok]
          refine ⟨fun hf => ?_, fun hf => ?_⟩
          · rw [Hctr.decrypt_eq s h16' hc' m d p hl hf.2.2 (apart_of_noOverlap ho hf.2.2), hus, ec]
          · unfold Hctr.decrypt
            rw [if_neg (by omega), if_pos (by simp only [Fits] at hf; omega)]
      · intro x hx
        have hx' : 16 ≤ x.length := hx.2.2
        exact ⟨Hctr.encryptH_length c h16 _ (Hctr.uhash_length s0) x hx',
          Hctr.decryptH_encryptH c h16 _ (Hctr.uhash_length s0) x hx',
          Hctr.decryptH_length c h16 _ (Hctr.uhash_length s0) x hx'⟩
    · refine ⟨id, id, fun env _ => ⟨?_, ?_⟩, fun x hx => absurd ⟨hx.1, hx.2.1⟩ hk⟩
      · intro m d p _ _
        simp only [encInto, (Hctr.C38_new_ok_iff c env.conc tweak hkey).2 hk, Res.bind_panic]
        exact ⟨fun hf => absurd ⟨hf.1, hf.2.1⟩ hk, fun _ => trivial⟩
      · intro m d p _ _
        simp only [decInto, (Hctr.C38_new_ok_iff c env.conc tweak hkey).2 hk, Res.bind_panic]
        exact ⟨fun hf => absurd ⟨hf.1, hf.2.1⟩ hk, fun _ => trivial⟩
  · have env0 : Env := ⟨id, id, fun _ => 0, none, ⟨fun _ t _ p _ => p ++ List.replicate t 0,
      fun _ t _ ct _ => some (ct.take (ct.length - t)), by intros; simp, by intros; simp⟩⟩
    obtain ⟨E, D, h1, h2, h3⟩ := mode_pair c env0 iv tweak hkey md hmd hbs (fun h => absurd h hm)
    refine ⟨E, D, fun env _ => ⟨?_, ?_⟩, h3⟩
    · have : encInto env c iv tweak hkey md = encInto env0 c iv tweak hkey md := by cases md <;> first | rfl | exact absurd rfl hm
      rw [this]; exact h1
    · have : decInto env c iv tweak hkey md = decInto env0 c iv tweak hkey md := by cases md <;> first | rfl | exact absurd rfl hm
      rw [this]; exact h2

theorem write_fresh_bytes (h : Heap) (out : Bytes) (b : Nat) :
    (⟨h.mem.write h.brk out, b⟩ : Heap).bytes ⟨h.brk, out.length, out.length⟩ = out := by
  unfold Heap.bytes; exact Mem.read_write_self' _ _ _ _ rfl

/-- Length-preserving modes. -/
theorem modeOK_same {env : Env} {c : BlockCipher} {o : Opt} {h : Heap} {p : Slice} (hmd : SameLength o.mode = true) (hbs : c.bs < 512)
    (hh : o.mode = .hctr → c.bs = 16 ∧ env.conc ≠ some 0) (vp : p.Valid h) :
    (Fits o.mode c.bs o.iv.len o.tweak.len o.hkey.len p.len → ∃ h' ct, modeEnc env c o h p = .ok (h', ct) ∧ ModeOK env c o h p h' ct) ∧
    (¬ Fits o.mode c.bs o.iv.len o.tweak.len o.hkey.len p.len → modeEnc env c o h p = .panic) := by
  obtain ⟨E, D, hed, hr⟩ := mode_pair' c (h.bytes o.iv) (h.bytes o.tweak) (h.bytes o.hkey) o.mode hmd hbs (fun e => (hh e).1)
  obtain ⟨hE, -⟩ := hed env (fun e => (hh e).2)
  simp only [bytes_length] at hE hr hed
  obtain ⟨e1, e2⟩ := into_eq (c := c) hE (fun x hx => (hr x hx).1) vp
  rw [modeEnc_same hmd]
  refine ⟨fun hf => ?_, fun hf => ?_⟩
  · rw [e1 hf]
    have hl := (hr (h.bytes p) (by rw [bytes_length]; exact hf)).1
    rw [bytes_length] at hl
    refine ⟨_, _, rfl, ?_, ?_, ?_, ?_, ?_, ?_⟩
    · simp [Slice.Valid, makeB]
    · simp [makeB]
    · simp [makeB]
    · intro a ha
      exact Mem.write_of_lt _ _ _ _ ha
    · simp only [makeB, extra]
      cases hm : o.mode <;> rw [hm] at hmd <;> first | rfl | cases hmd
    · intro env' h2 o2 ct2 _ hc' vo2 vct2 same hct
      have hb : (⟨h.mem.write h.brk (E (h.bytes p)), (makeB h p.len).1.brk⟩ : Heap).bytes (makeB h p.len).2 = E (h.bytes p) := by
        unfold Heap.bytes makeB
        exact Mem.read_write_self' _ _ _ _ hl
      rw [hb] at hct
      have hl2 : ct2.len = p.len := by
        have := congrArg List.length hct
        rw [bytes_length, hl] at this; exact this
      obtain ⟨-, hD⟩ := hed env' hc'
      have hfl : Fits o.mode c.bs o.iv.len o.tweak.len o.hkey.len ct2.len := by rw [hl2]; exact hf
      obtain ⟨e3, -⟩ := into_eq (c := c) hD (fun x hx => (hr x hx).2.2) vct2
      have hr2 := (hr (h.bytes p) (by rw [bytes_length]; exact hf)).2.1
      rw [modeDec_same (by rw [same.mode]; exact hmd), same.mode, same.iv, same.tweak, same.hkey, e3 hfl, hct, hr2]
      refine ⟨_, _, rfl, ?_, ?_⟩
      · simp [Slice.Valid, makeB]
      · unfold Heap.bytes makeB
        simp only
        rw [hl2]
        exact Mem.read_write_self' _ _ _ _ (by simp)
  · rw [e2 hf]; rfl

end Verif.Facade
