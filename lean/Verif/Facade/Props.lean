import Verif.Facade.Lemmas3
/-
C39 (Decrypt inverts Encrypt) and C42 (the caller's memory) for the block ciphers of the facade.
-/
namespace Verif.Facade
open Verif.Mode Verif.Padding Verif.Aead

theorem blockEncrypt_ok {env : Env} {c : BlockCipher} {o : Opt} {h : Heap} {data : Slice} {h1 : Heap} {ct : Slice}
    (e : blockEncrypt env c o h data = (h1, .ok ct)) :
    ∃ hp p, padM env o.padding h data c.bs = some (hp, p) ∧ (o.padding = .no ∨ p.len % c.bs = 0) ∧
      modeEnc env c o hp p = .ok (h1, ct) := by
  unfold blockEncrypt at e
  split at e
  · cases e
  · rename_i hp p hpm
    split at e
    · cases e
    · rename_i hc
      refine ⟨hp, p, hpm, ?_, ?_⟩
      · by_cases hn : o.padding = .no
        · exact Or.inl hn
        · exact Or.inr (by by_contra hne; exact hc ⟨hn, hne⟩)
      · generalize hm : modeEnc env c o hp p = r at e
        cases r with
        | ok x => cases e; rfl
        | err => cases e
        | panic => cases e
        | hang => cases e

theorem sameSettings_pad {h hp h2 : Heap} {o o2 : Opt} {data : Slice} (vo : o.Valid h)
    (hf : FrameExcept h hp (data.ptr + data.len) (data.ptr + data.cap)) (off : o.OffSpare data) (s : SameSettings h o h2 o2) :
    SameSettings hp o h2 o2 :=
  ⟨s.mode, s.padding, s.nonceSize, s.tagSize, s.resync,
    by rw [s.iv, bytes_offSpare vo.iv hf off.iv], by rw [s.additional, bytes_offSpare vo.additional hf off.additional],
    by rw [s.tweak, bytes_offSpare vo.tweak hf off.tweak], by rw [s.hkey, bytes_offSpare vo.hkey hf off.hkey]⟩

/-- C39: whatever `Encrypt` returns without an error, `Decrypt` with the same cipher and settings turns back into the
data, wherever ciphertext and settings are stored then.  For every block cipher of at most 255 bytes per block, every mode,
every padding and all data, under these conditions, each of which the theorems below show to be necessary: Zero padding
only for data that does not end in a zero byte; with a padding, the bytes that the mode adds (tag of GCM and CCM, prefix
of OCFB) are a multiple of the block size; the iv (tweak, …) is not stored in the spare capacity of `data`.
Partial: holds under these conditions only, and HCTR needs a 16-byte block cipher. -/
theorem C39_roundtrip_partial (env env' : Env) (hg : env'.gcm = env.gcm) (c : BlockCipher) (hbs : c.bs ≤ 255) (o : Opt) (h : Heap)
    (data : Slice) (vd : data.Valid h) (vo : o.Valid h) (off : o.OffSpare data)
    (hz : o.padding = .zero → (h.bytes data).getLast? ≠ some 0)
    (hx : o.padding = .no ∨ c.bs ∣ extra c o)
    (hh : o.mode = .hctr → c.bs = 16 ∧ env.conc ≠ some 0 ∧ env'.conc ≠ some 0)
    (h1 : Heap) (ct : Slice) (henc : blockEncrypt env c o h data = (h1, .ok ct))
    (h2 : Heap) (o2 : Opt) (ct2 : Slice) (vo2 : o2.Valid h2) (vct2 : ct2.Valid h2) (same : SameSettings h o h2 o2)
    (hct : h2.bytes ct2 = h1.bytes ct) :
    ∃ h3 r, blockDecrypt env' c o2 h2 ct2 = (h3, .ok r) ∧ r.Valid h3 ∧ h3.bytes r = h.bytes data := by
  obtain ⟨hp, p, e1, e2, e3⟩ := blockEncrypt_ok henc
  have g := padM_good vd e1
  have hpo : o.padding ≠ .other := fun hc => by rw [hc] at e1; cases e1
  have m := modeOK (by omega) (fun hc => ⟨(hh hc).1, (hh hc).2.1⟩) g.valid (vo.mono g.frame.1) e3
  have hlen : ct2.len = ct.len := by
    have := congrArg List.length hct; simpa [bytes_length] using this
  have hcnd : ¬ (o2.padding ≠ .no ∧ ct2.len % c.bs ≠ 0) := by
    rintro ⟨a, b⟩
    rw [same.padding] at a
    rw [hlen, m.len] at b
    have e2' := e2.resolve_left a
    have hx' := hx.resolve_left a
    rw [Nat.add_mod, e2', (dvd_iff_mod _ _).1 hx'] at b
    simp at b
  obtain ⟨h3, d, e4, vdd, e5⟩ := m.undo env' h2 o2 ct2 hg (fun hc => (hh hc).2.2) vo2 vct2 (sameSettings_pad vo g.frame off same) hct
  have g2 : hp.bytes p = padOut env o.padding (h.bytes data) c.bs := g.bytes
  have hu := unpad_padOut env o.padding (h.bytes data) c.bs c.bs_pos hbs hpo hz
  rw [← g2, ← e5] at hu
  unfold blockDecrypt
  rw [if_neg hcnd, e4]
  simp only [settle, same.padding, hu]
  have hpre := unpad_prefix hu
  have hle := hpre.length_le
  simp only [bytes_length] at hle
  refine ⟨h3, _, rfl, ⟨?_, ?_⟩, ?_⟩
  · have := vdd.1; simp only [bytes_length]; omega
  · exact vdd.2
  · have := List.prefix_iff_eq_take.1 hpre
    unfold Heap.bytes at this ⊢
    simp only [Mem.read_length] at this ⊢
    rw [Mem.read_take] at this
    rw [show min data.len d.len = data.len from by omega] at this
    exact this.symm

/-- C39 (when `Encrypt` works), for the modes that keep the length: exactly when the padding is registered and the lengths fit;
otherwise it reports an error. The ciphertext has the length of the padded data. -/
theorem C39_encrypt_ok_iff (env : Env) (c : BlockCipher) (hbs : c.bs < 512) (o : Opt) (h : Heap) (data : Slice)
    (vd : data.Valid h) (hmd : SameLength o.mode = true) (hh : o.mode = .hctr → c.bs = 16 ∧ env.conc ≠ some 0)
    (vo : o.Valid h) :
    ((∃ h1 ct, blockEncrypt env c o h data = (h1, .ok ct)) ↔
      o.padding ≠ .other ∧ (o.padding = .no ∨ c.bs ∣ paddedLen o.padding c.bs data.len) ∧
      Fits o.mode c.bs o.iv.len o.tweak.len o.hkey.len (paddedLen o.padding c.bs data.len)) ∧
    (∀ h1 ct, blockEncrypt env c o h data = (h1, .ok ct) → ct.len = paddedLen o.padding c.bs data.len) := by
  have key : ∀ hp p, padM env o.padding h data c.bs = some (hp, p) → p.Valid hp ∧ p.len = paddedLen o.padding c.bs data.len := by
    intro hp p e1
    have g := padM_good vd e1
    refine ⟨g.valid, ?_⟩
    have := g.len
    simp only at this
    rw [this, padOut_length env o.padding _ c.bs c.bs_pos, bytes_length]
  constructor
  · constructor
    · rintro ⟨h1, ct, e⟩
      obtain ⟨hp, p, e1, e2, e3⟩ := blockEncrypt_ok e
      obtain ⟨vp, hl⟩ := key hp p e1
      refine ⟨fun hc => ?_, ?_, ?_⟩
      · rw [hc] at e1; cases e1
      · rw [← hl, dvd_iff_mod]; exact e2
      · rw [← hl]
        by_contra hf
        rw [(modeOK_same hmd hbs hh vp).2 hf] at e3
        cases e3
    · rintro ⟨h1, h2, h3⟩
      cases hpm : padM env o.padding h data c.bs with
      | none => exact absurd ((padM_none ..).1 hpm) h1
      | some r =>
        obtain ⟨hp, p⟩ := r
        obtain ⟨vp, hl⟩ := key hp p hpm
        rw [← hl] at h2 h3
        obtain ⟨h', ct, e, -⟩ := (modeOK_same hmd hbs hh vp).1 h3
        refine ⟨h', ct, ?_⟩
        unfold blockEncrypt
        rw [hpm]
        simp only
        rw [if_neg (by rw [dvd_iff_mod] at h2; rintro ⟨a, b⟩; exact b (h2.resolve_left a)), e]
        rfl
  · intro h1 ct e
    obtain ⟨hp, p, e1, e2, e3⟩ := blockEncrypt_ok e
    obtain ⟨vp, hl⟩ := key hp p e1
    have g := padM_good vd e1
    have m := modeOK hbs hh vp (vo.mono g.frame.1) e3
    rw [m.len, hl]
    unfold extra
    cases hm : o.mode <;> rw [hm] at hmd <;> first | rfl | cases hmd

/-- C39 (violation): with a padding and a tag or prefix that is not a multiple of the block size, `Decrypt` refuses every
ciphertext that `Encrypt` produced. So OCFB never works with a padding (its prefix is `bs+2`), and GCM/CCM with a padding
only when the tag is a multiple of the block. -/
theorem C39_padding_with_tag_violated (env env' : Env) (c : BlockCipher) (hbs : c.bs < 512) (o : Opt) (h : Heap)
    (data : Slice) (vd : data.Valid h) (vo : o.Valid h) (hh : o.mode = .hctr → c.bs = 16 ∧ env.conc ≠ some 0)
    (hx : o.padding ≠ .no ∧ ¬ c.bs ∣ extra c o)
    (h1 : Heap) (ct : Slice) (henc : blockEncrypt env c o h data = (h1, .ok ct))
    (h2 : Heap) (o2 : Opt) (ct2 : Slice) (same : SameSettings h o h2 o2) (hct : h2.bytes ct2 = h1.bytes ct) :
    blockDecrypt env' c o2 h2 ct2 = (h2, .err) := by
  obtain ⟨hp, p, e1, e2, e3⟩ := blockEncrypt_ok henc
  have g := padM_good vd e1
  have m := modeOK hbs hh g.valid (vo.mono g.frame.1) e3
  have hlen : ct2.len = ct.len := by
    have := congrArg List.length hct; simpa [bytes_length] using this
  unfold blockDecrypt
  rw [if_pos ?_]
  rw [same.padding, hlen, m.len]
  refine ⟨hx.1, fun h0 => hx.2 ?_⟩
  have e2' := e2.resolve_left hx.1
  rw [← dvd_iff_mod] at h0 e2'
  exact (Nat.dvd_add_right e2').1 h0

/-- C39 (violation): OCFB with any padding, on every cipher with a block of more than 2 bytes. -/
theorem C39_ocfb_padding_violated (c : BlockCipher) (hbs : 2 < c.bs) (o : Opt) (hm : o.mode = .ocfb) : ¬ c.bs ∣ extra c o := by
  unfold extra
  rw [hm]
  simp only
  intro h
  have := (Nat.dvd_add_right (Nat.dvd_refl c.bs)).1 h
  have := Nat.le_of_dvd (by omega) this
  omega

/-- C39 (violation): Zero padding loses the zero bytes at the end of the data, in every mode that keeps the length. -/
theorem C39_zero_padding_violated (env env' : Env) (c : BlockCipher) (hbs : c.bs < 512) (o : Opt) (h : Heap)
    (data : Slice) (vd : data.Valid h) (vo : o.Valid h) (off : o.OffSpare data) (hmd : SameLength o.mode = true)
    (hz : o.padding = .zero) (hlast : (h.bytes data).getLast? = some 0) (hg : env'.gcm = env.gcm)
    (hh : o.mode = .hctr → c.bs = 16 ∧ env.conc ≠ some 0 ∧ env'.conc ≠ some 0)
    (h1 : Heap) (ct : Slice) (henc : blockEncrypt env c o h data = (h1, .ok ct))
    (h2 : Heap) (o2 : Opt) (ct2 : Slice) (vo2 : o2.Valid h2) (vct2 : ct2.Valid h2) (same : SameSettings h o h2 o2)
    (hct : h2.bytes ct2 = h1.bytes ct) :
    ∃ h3 r, blockDecrypt env' c o2 h2 ct2 = (h3, .ok r) ∧ h3.bytes r ≠ h.bytes data := by
  obtain ⟨hp, p, e1, e2, e3⟩ := blockEncrypt_ok henc
  have g := padM_good vd e1
  have m := modeOK hbs (fun hc => ⟨(hh hc).1, (hh hc).2.1⟩) g.valid (vo.mono g.frame.1) e3
  have hlen : ct2.len = ct.len := by
    have := congrArg List.length hct; simpa [bytes_length] using this
  have hx0 : extra c o = 0 := by
    unfold extra
    cases hm : o.mode <;> rw [hm] at hmd <;> first | rfl | cases hmd
  have hcnd : ¬ (o2.padding ≠ .no ∧ ct2.len % c.bs ≠ 0) := by
    rintro ⟨a, b⟩
    rw [same.padding] at a
    rw [hlen, m.len, hx0] at b
    exact b (e2.resolve_left a)
  obtain ⟨h3, d, e4, vdd, e5⟩ := m.undo env' h2 o2 ct2 hg (fun hc => (hh hc).2.2) vo2 vct2 (sameSettings_pad vo g.frame off same) hct
  have g2 : hp.bytes p = padOut env o.padding (h.bytes data) c.bs := g.bytes
  rw [g2, hz] at e5
  have hnot := mt (C06_zero_roundtrip_iff (h.bytes data) c.bs c.bs_pos).1 (fun h => h hlast)
  obtain ⟨t, hu⟩ : ∃ t, unpad .zero (h3.bytes d) = .ok t := ⟨_, rfl⟩
  unfold blockDecrypt
  rw [if_neg hcnd, e4]
  simp only [settle, same.padding, hz, hu]
  refine ⟨h3, _, rfl, fun hc => hnot ?_⟩
  have hpre := unpad_prefix hu
  have hle := hpre.length_le
  rw [show zeroPad (h.bytes data) c.bs = h3.bytes d from e5.symm]
  have ht : t = h3.bytes ⟨d.ptr, t.length, d.cap⟩ := by
    have := List.prefix_iff_eq_take.1 hpre
    unfold Heap.bytes at this hle ⊢
    simp only [Mem.read_length] at hle
    rw [Mem.read_take, Nat.min_eq_left hle] at this
    exact this
  rw [← hc, ← ht]
  exact hu

/-! A concrete run: 4-byte toy cipher, CBC with PKCS7, data of 5 bytes at address 0 with room for 12, iv at 20. -/

def demoGcm : StdGcm :=
  ⟨fun _ t _ p _ => p ++ List.replicate t 0, fun _ t _ ct _ => some (ct.take (ct.length - t)), by intros; simp, by intros; simp⟩
def demoEnv : Env := ⟨fun _ => 0, fun n => n, fun n => byteOf n, none, demoGcm⟩
def demoOpt (md : ModeN) (pad : PadN) (iv : Nat) : Opt := ⟨md, pad, ⟨iv, 4, 4⟩, 0, 0, nilS, nilS, nilS, false⟩
def demoHeap : Heap := ⟨fun a => byteOf (a + 1), 32⟩
def demoCipher : BlockCipher := toyCipher 4 (by decide)

/-- Encrypt, then Decrypt the ciphertext in the heap that Encrypt left, with the iv read from `iv2`. -/
def demoRun (md : ModeN) (pad : PadN) (iv iv2 : Nat) : Option Bytes :=
  match blockEncrypt demoEnv demoCipher (demoOpt md pad iv) demoHeap ⟨0, 5, 12⟩ with
  | (h1, .ok ct) =>
    match blockDecrypt demoEnv demoCipher (demoOpt md pad iv2) h1 ct with
    | (h2, .ok r) => some (h2.bytes r)
    | _ => none
  | _ => none

example : demoRun .cbc .pkcs7 20 20 = some [1, 2, 3, 4, 5] := by decide +kernel
example : demoRun .cfb .tbc 20 20 = some [1, 2, 3, 4, 5] := by decide +kernel
example : demoRun .ocfb .no 20 20 = some [1, 2, 3, 4, 5] := by decide +kernel
example : demoRun .ocfb .pkcs7 20 20 = none := by decide +kernel
example : (demoOpt .cbc .pkcs7 20).Valid demoHeap ∧ (demoOpt .cbc .pkcs7 20).OffSpare ⟨0, 5, 12⟩ := by
  refine ⟨⟨?_, ?_, ?_, ?_⟩, ⟨?_, ?_, ?_, ?_⟩⟩ <;> simp [demoOpt, demoHeap, Slice.Valid, OffSpare, nilS]

/-- Memory with the bytes 1, 2, 3, … and, at address 20, a copy of the four bytes at address 5. -/
def demoHeap2 : Heap := ⟨fun a => if a < 20 then byteOf (a + 1) else byteOf (a - 14), 32⟩

def ivCheck : Bool :=
  match blockEncrypt demoEnv demoCipher (demoOpt .cbc .pkcs7 5) demoHeap2 ⟨0, 5, 12⟩ with
  | (h1, .ok ct) =>
    decide (h1.bytes (demoOpt .cbc .pkcs7 20).iv = demoHeap2.bytes (demoOpt .cbc .pkcs7 5).iv) &&
    match blockDecrypt demoEnv demoCipher (demoOpt .cbc .pkcs7 20) h1 ct with
    | (h2, .ok r) => decide (h2.bytes r ≠ demoHeap2.bytes ⟨0, 5, 12⟩)
    | _ => true
  | _ => false

/-- C39 (violation): an iv stored in the spare capacity of the data is overwritten by the padding before it is used, so
Decrypt with the iv that was passed (a copy of it, made before the call) does not give the data. -/
theorem C39_iv_in_spare_capacity_violated : ∃ (c : BlockCipher) (o o2 : Opt) (h h1 : Heap) (data ct : Slice),
    data.Valid h ∧ o.Valid h ∧ o2.Valid h ∧ SameSettings h o h1 o2 ∧ blockEncrypt demoEnv c o h data = (h1, .ok ct) ∧
    ∀ h2 r, blockDecrypt demoEnv c o2 h1 ct = (h2, .ok r) → h2.bytes r ≠ h.bytes data := by
  have hc : ivCheck = true := by decide +kernel
  unfold ivCheck at hc
  split at hc
  · rename_i h1 ct he
    rw [Bool.and_eq_true, decide_eq_true_iff] at hc
    refine ⟨demoCipher, demoOpt .cbc .pkcs7 5, demoOpt .cbc .pkcs7 20, demoHeap2, h1, ⟨0, 5, 12⟩, ct, ?_, ?_, ?_, ?_, he, ?_⟩
    · simp [Slice.Valid, demoHeap2]
    · refine ⟨?_, ?_, ?_, ?_⟩ <;> simp [demoOpt, Slice.Valid, nilS, demoHeap2]
    · refine ⟨?_, ?_, ?_, ?_⟩ <;> simp [demoOpt, Slice.Valid, nilS, demoHeap2]
    · exact ⟨rfl, rfl, rfl, rfl, rfl, hc.1, rfl, rfl, rfl⟩
    · intro h2 r hd
      rw [hd] at hc
      simpa using hc.2
  · cases hc

/-! C42 -/

/-- C42: `Encrypt` changes none of the memory that existed before the call, except possibly the spare capacity
`data[len(data):cap(data)]` (which the padding fills when it is large enough) — in particular not the data, and not key, iv,
tweak, … unless they are stored there. This holds whether or not the call succeeds. A returned ciphertext is a fresh
buffer. -/
theorem C42_encrypt_frame_partial (env : Env) (c : BlockCipher) (hbs : c.bs < 512) (o : Opt) (h : Heap) (data : Slice)
    (vd : data.Valid h) (vo : o.Valid h) (hh : o.mode = .hctr → c.bs = 16 ∧ env.conc ≠ some 0) :
    (∀ a, a < h.brk → a < data.ptr + data.len ∨ data.ptr + data.cap ≤ a → (blockEncrypt env c o h data).1.mem a = h.mem a) ∧
    (∀ h1 ct, blockEncrypt env c o h data = (h1, .ok ct) → ct.Valid h1 ∧ (h.brk ≤ ct.ptr ∨ ct.len = 0)) := by
  constructor
  · intro a ha hor
    unfold blockEncrypt
    cases hpm : padM env o.padding h data c.bs with
    | none => rfl
    | some r =>
      obtain ⟨hp, p⟩ := r
      have g := padM_good vd hpm
      have h1 := g.frame.2 a ha hor
      simp only at h1 ⊢
      split
      · exact h1
      · cases e3 : modeEnc env c o hp p with
        | ok x =>
          obtain ⟨h', ct⟩ := x
          have m := modeOK hbs hh g.valid (vo.mono g.frame.1) e3
          have := g.frame.1
          simp only [settle]
          rw [m.frame a (by omega), h1]
        | err => exact h1
        | panic => exact h1
        | hang => exact h1
  · intro h1 ct e
    obtain ⟨hp, p, e1, e2, e3⟩ := blockEncrypt_ok e
    have g := padM_good vd e1
    have m := modeOK hbs hh g.valid (vo.mono g.frame.1) e3
    have := g.frame.1
    exact ⟨m.valid, m.fresh.imp (fun x => by omega) id⟩

/-- C42: with no padding, or with data that has no spare capacity, `Encrypt` changes nothing at all. -/
theorem C42_encrypt_pure (env : Env) (c : BlockCipher) (hbs : c.bs < 512) (o : Opt) (h : Heap) (data : Slice)
    (vd : data.Valid h) (vo : o.Valid h) (hh : o.mode = .hctr → c.bs = 16 ∧ env.conc ≠ some 0)
    (hcap : data.cap = data.len ∨ o.padding = .no) : ∀ a, a < h.brk → (blockEncrypt env c o h data).1.mem a = h.mem a := by
  intro a ha
  rcases hcap with hcap | hno
  · exact (C42_encrypt_frame_partial env c hbs o h data vd vo hh).1 a ha (by omega)
  · unfold blockEncrypt
    rw [hno]
    simp only [padM, ne_eq, not_true_eq_false, false_and, if_false]
    cases e3 : modeEnc env c o h data with
    | ok x =>
      obtain ⟨h', ct⟩ := x
      exact (modeOK hbs hh vd vo e3).frame a ha
    | err => rfl
    | panic => rfl
    | hang => rfl

/-- C42: `Decrypt` changes nothing at all in any mode but OCFB. -/
theorem C42_decrypt_pure_partial (env : Env) (c : BlockCipher) (hbs : c.bs < 512) (o : Opt) (h : Heap) (data : Slice)
    (vd : data.Valid h) (vo : o.Valid h) (hh : o.mode = .hctr → c.bs = 16 ∧ env.conc ≠ some 0) (hm : o.mode ≠ .ocfb) :
    ∀ a, a < h.brk → (blockDecrypt env c o h data).1.mem a = h.mem a := by
  intro a ha
  unfold blockDecrypt
  split
  · rfl
  · cases e : modeDec env c o h data with
    | ok x =>
      obtain ⟨h', d⟩ := x
      have := (modeDec_frame hbs hh hm vd vo e).2.2 a ha
      simp only [settle]
      split <;> exact this
    | err => rfl
    | panic => rfl
    | hang => rfl

/-- C42: a second call sees the same data and settings as the first, whatever spare capacity the first one used. -/
theorem C42_encrypt_again (env : Env) (c : BlockCipher) (hbs : c.bs < 512) (o : Opt) (h : Heap) (data : Slice)
    (vd : data.Valid h) (vo : o.Valid h) (off : o.OffSpare data) (hh : o.mode = .hctr → c.bs = 16 ∧ env.conc ≠ some 0) :
    (blockEncrypt env c o h data).1.bytes data = h.bytes data ∧
    SameSettings h o (blockEncrypt env c o h data).1 o := by
  have hf := (C42_encrypt_frame_partial env c hbs o h data vd vo hh).1
  have hb : ∀ s : Slice, s.Valid h → OffSpare data s → (blockEncrypt env c o h data).1.bytes s = h.bytes s := by
    intro s vs os
    unfold Heap.bytes Mem.read
    apply List.map_congr_left
    intro i hi
    rw [List.mem_range] at hi
    have := vs.1; have := vs.2
    refine hf _ (by omega) ?_
    rcases os with h | h | h <;> omega
  exact ⟨hb data vd (Or.inr (Or.inl (Nat.le_refl _))), rfl, rfl, rfl, rfl, rfl, hb _ vo.iv off.iv, hb _ vo.additional off.additional,
    hb _ vo.tweak off.tweak, hb _ vo.hkey off.hkey⟩

def ocfbCheck : Bool :=
  match blockEncrypt demoEnv demoCipher (demoOpt .ocfb .no 20) demoHeap ⟨0, 5, 12⟩ with
  | (h1, .ok ct) =>
    match blockDecrypt demoEnv demoCipher (demoOpt .ocfb .no 20) h1 ct with
    | (h2, .ok r) => decide (h2.bytes r = demoHeap.bytes ⟨0, 5, 12⟩) && decide (h2.bytes ct ≠ h1.bytes ct) &&
        match blockDecrypt demoEnv demoCipher (demoOpt .ocfb .no 20) h2 ct with
        | (_, .ok _) => false
        | _ => true
    | _ => false
  | _ => false

/-- C42 (violation): `Decrypt` in OCFB mode overwrites the ciphertext it is given; the second `Decrypt` of the same buffer
fails. -/
theorem C42_ocfb_decrypt_violated : ∃ (c : BlockCipher) (o : Opt) (h h1 h2 : Heap) (data ct r : Slice),
    data.Valid h ∧ o.Valid h ∧ blockEncrypt demoEnv c o h data = (h1, .ok ct) ∧ blockDecrypt demoEnv c o h1 ct = (h2, .ok r) ∧
    h2.bytes r = h.bytes data ∧ h2.bytes ct ≠ h1.bytes ct ∧ ∀ h3 s, blockDecrypt demoEnv c o h2 ct ≠ (h3, .ok s) := by
  have hc : ocfbCheck = true := by decide +kernel
  unfold ocfbCheck at hc
  split at hc
  · rename_i h1 ct he
    split at hc
    · rename_i h2 r hd
      simp only [Bool.and_eq_true, decide_eq_true_iff] at hc
      refine ⟨demoCipher, demoOpt .ocfb .no 20, demoHeap, h1, h2, ⟨0, 5, 12⟩, ct, r, ?_, ?_, he, hd, hc.1.1, hc.1.2, ?_⟩
      · simp [Slice.Valid, demoHeap]
      · refine ⟨?_, ?_, ?_, ?_⟩ <;> simp [demoOpt, Slice.Valid, nilS, demoHeap]
      · intro h3 s hs
        rw [hs] at hc
        simp at hc
    · cases hc
  · cases hc

def spareCheck : Bool := decide ((blockEncrypt demoEnv demoCipher (demoOpt .cbc .pkcs7 20) demoHeap ⟨0, 5, 12⟩).1.bytes ⟨5, 3, 3⟩ ≠
  demoHeap.bytes ⟨5, 3, 3⟩)

/-- C42 (violation): `Encrypt(buf[:5])` overwrites `buf[5:8]`. -/
theorem C42_padding_overwrites_spare_capacity_violated : ∃ (c : BlockCipher) (o : Opt) (h : Heap) (data rest : Slice),
    data.Valid h ∧ o.Valid h ∧ rest.Valid h ∧ rest.ptr = data.ptr + data.len ∧
    (blockEncrypt demoEnv c o h data).1.bytes rest ≠ h.bytes rest := by
  have hc : spareCheck = true := by decide +kernel
  unfold spareCheck at hc
  rw [decide_eq_true_iff] at hc
  refine ⟨demoCipher, demoOpt .cbc .pkcs7 20, demoHeap, ⟨0, 5, 12⟩, ⟨5, 3, 3⟩, ?_, ?_, ?_, rfl, hc⟩
  · simp [Slice.Valid, demoHeap]
  · refine ⟨?_, ?_, ?_, ?_⟩ <;> simp [demoOpt, Slice.Valid, nilS, demoHeap]
  · simp [Slice.Valid, demoHeap]

end Verif.Facade
