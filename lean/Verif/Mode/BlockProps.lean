import Verif.Mode.BlockLemmas
/-
C11–C17: the block modes of /repo/mode.

Reading guide.  `xxxEnc c st m dst src` is one call of `CryptBlocks(dst, src)` on an object whose registers
are `st`, in memory `m`; it returns the new memory and registers.  `m.read p n` are the `n` bytes at address
`p`; `m.write p bs` is `m` with `bs` stored at `p` and nothing else changed, so the equations below also say
that no other memory is touched.  `chunks n x` splits `x` into consecutive blocks of `n` bytes.
`Calls A call st ins outs st'` is any sequence of successful calls on one object, every call with its own
memory and buffers satisfying the aliasing restriction `A`.
-/
namespace Verif.Mode

variable (c : BlockCipher)

/-- A non-trivial cipher used in the examples. -/
abbrev toy2 : BlockCipher := toyCipher 2 (by decide)

/-! ### C11 ECB -/

/-- C11: one ECB encryption writes the ECB ciphertext to dst and nothing else (dst may equal src). -/
theorem C11_ecb_encrypt_spec (m : Mem) (dst src : Slice) (h1 : src.len % c.bs = 0)
    (h2 : src.len ≤ dst.len) (h3 : NoPartialOverlap dst src) :
    ecbEnc c () m dst src =
      .ok (m.write dst.ptr (Spec.ecb c.E (chunks c.bs (m.read src.ptr src.len))).flatten, ()) := by
  have h := ((ecbEnc_ok c).crypt false () m dst src trivial h1 h2 h3).1
  rw [ecbEnc, h, blkRun, ecbEncF_spec]

example : ∃ m' , ecbEnc toy2 () (fun a => BitVec.ofNat 8 a) ⟨0, 4, 4⟩ ⟨0, 4, 4⟩ = .ok (m', ()) ∧
    m'.read 0 4 = [2, 1, 4, 3] := by
  refine ⟨_, C11_ecb_encrypt_spec toy2 _ ⟨0, 4, 4⟩ ⟨0, 4, 4⟩ rfl (by decide) (by decide), ?_⟩
  decide

/-- C11: decryption histories undo encryption histories. -/
theorem C11_ecb_roundtrip {ins outs ins' outs' : List Bytes}
    (he : Calls NoPartialOverlap (ecbEnc c) () ins outs ())
    (hd : Calls NoPartialOverlap (ecbDec c) () ins' outs' ())
    (h : ins'.flatten = outs.flatten) : outs'.flatten = ins.flatten := by
  obtain ⟨e1, _, _, e2⟩ := (ecbEnc_ok c).calls trivial he
  obtain ⟨d1, _⟩ := (ecbDec_ok c).calls trivial hd
  rw [d1, h, e1, ecb_roundtrip c _ e2]

example : ∃ outs st, Calls NoOverlap (ecbEnc toy2) () [[1, 2, 3, 4], [5, 6]] outs st :=
  (ecbEnc_ok toy2).toDisjoint.calls_exist false _ (by decide) () trivial

/-- C11: the only panics are bad lengths; it never hangs. -/
theorem C11_ecb_panics (m : Mem) (dst src : Slice) (h : src.len % c.bs ≠ 0 ∨ dst.len < src.len) :
    ecbEnc c () m dst src = .panic ∧ ecbDec c () m dst src = .panic := by
  constructor <;>
  · simp only [ecbEnc, ecbDec, cryptBlocks]
    by_cases h1 : src.len % c.bs = 0
    · rw [if_neg (by simpa using h1), if_pos (by omega)]
    · rw [if_pos h1]

example : (3 : Nat) % toy2.bs ≠ 0 := by decide

/-! ### C12 PCBC -/

/-- C12 (disjoint buffers): one PCBC encryption computes the PCBC chaining equations. -/
theorem C12_pcbc_encrypt_spec_partial (iv v : Bytes) (hnew : pcbcNew c iv = .ok v) (m : Mem)
    (dst src : Slice) (h1 : src.len % c.bs = 0) (h2 : src.len ≤ dst.len) (h3 : NoOverlap dst src) :
    ∃ v', pcbcEnc c v m dst src =
      .ok (m.write dst.ptr (Spec.pcbc c.E iv (chunks c.bs (m.read src.ptr src.len))).flatten, v') := by
  unfold pcbcNew at hnew
  split at hnew
  · cases hnew
  · obtain rfl := Res.ok.inj hnew
    rename_i hl
    have h := ((pcbcEnc_ok c).cryptDisjoint true iv m dst src (by simpa using hl) h1 h2 h3).1
    exact ⟨_, by rw [pcbcEnc, h, blkRun, pcbcEncF_spec]⟩

example : pcbcNew toy2 [7, 8] = .ok [7, 8] ∧ NoOverlap ⟨10, 4, 4⟩ ⟨0, 4, 4⟩ := by decide

/-- C12 (disjoint buffers): the decrypter undoes any history of the encrypter. -/
theorem C12_pcbc_roundtrip_partial (iv v : Bytes) (hnew : pcbcNew c iv = .ok v)
    {ins outs ins' outs' : List Bytes} {v1 v2 : Bytes}
    (he : Calls NoOverlap (pcbcEnc c) v ins outs v1)
    (hd : Calls NoOverlap (pcbcDec c) v ins' outs' v2)
    (h : ins'.flatten = outs.flatten) : outs'.flatten = ins.flatten := by
  unfold pcbcNew at hnew
  split at hnew
  · cases hnew
  · obtain rfl := Res.ok.inj hnew
    rename_i hl
    have hl' : iv.length = c.bs := by simpa using hl
    obtain ⟨e1, _, _, e2⟩ := (pcbcEnc_ok c).callsDisjoint hl' he
    obtain ⟨d1, _⟩ := (pcbcDec_ok c).callsDisjoint hl' hd
    rw [d1, h, e1, pcbc_roundtrip c _ _ e2 hl']

example : ∃ outs st, Calls NoOverlap (pcbcEnc toy2) [7, 8] [[1, 2, 3, 4], [5, 6]] outs st :=
  (pcbcEnc_ok toy2).calls_exist true _ (by decide) _ rfl

/-- What PCBC encryption computes when dst is src: only the first block is chained, the rest is plain ECB. -/
theorem C12_pcbc_in_place_is_ecb (iv p : Bytes) (ps : List Bytes) (hiv : iv.length = c.bs) (m : Mem)
    (dst src : Slice) (h1 : src.len % c.bs = 0) (h2 : src.len ≤ dst.len) (h3 : dst.ptr = src.ptr)
    (hp : chunks c.bs (m.read src.ptr src.len) = p :: ps) :
    ∃ v', pcbcEnc c iv m dst src =
      .ok (m.write dst.ptr (c.E (xorb p iv) :: Spec.ecb c.E ps).flatten, v') := by
  have h := (pcbcEncIn_ok c).cryptSame true iv m dst src hiv h1 h2 h3
  have hall := chunks_all_len c.bs c.bs_pos (m.read src.ptr src.len)
    (by simpa using Nat.dvd_of_mod_eq_zero h1)
  rw [hp] at hall
  rw [blkRun, hp] at h
  simp only [mapAcc] at h
  rw [show (pcbcEncInF c iv p).2 = List.replicate c.bs 0 from rfl,
    pcbcEncInF_zero c ps (fun b hb => hall b (by simp [hb]))] at h
  exact ⟨_, h⟩

/-- The same for decryption. -/
theorem C12_pcbc_in_place_decrypt_is_ecb (iv p : Bytes) (ps : List Bytes) (hiv : iv.length = c.bs) (m : Mem)
    (dst src : Slice) (h1 : src.len % c.bs = 0) (h2 : src.len ≤ dst.len) (h3 : dst.ptr = src.ptr)
    (hp : chunks c.bs (m.read src.ptr src.len) = p :: ps) :
    ∃ v', pcbcDec c iv m dst src =
      .ok (m.write dst.ptr (xorb (c.D p) iv :: ps.map c.D).flatten, v') := by
  have h := (pcbcDecIn_ok c).cryptSame true iv m dst src hiv h1 h2 h3
  have hall := chunks_all_len c.bs c.bs_pos (m.read src.ptr src.len)
    (by simpa using Nat.dvd_of_mod_eq_zero h1)
  rw [hp] at hall
  rw [blkRun, hp] at h
  simp only [mapAcc] at h
  rw [show (pcbcDecInF c iv p).2 = List.replicate c.bs 0 from rfl,
    pcbcDecInF_zero c ps (fun b hb => hall b (by simp [hb]))] at h
  exact ⟨_, h⟩

example : chunks toy2.bs (Mem.read (fun a => BitVec.ofNat 8 a) 0 4) = [0, 1] :: [[2, 3]] := by decide

/-- C12 does not hold as stated: with dst = src, which the API accepts, the result is not PCBC. -/
theorem C12_pcbc_in_place_violated : ∃ (c : BlockCipher) (iv : Bytes) (m : Mem) (b : Slice) (m' : Mem)
    (v' : Bytes), pcbcNew c iv = .ok iv ∧ pcbcEnc c iv m b b = .ok (m', v') ∧
      m'.read b.ptr b.len ≠ (Spec.pcbc c.E iv (chunks c.bs (m.read b.ptr b.len))).flatten := by
  obtain ⟨v', h⟩ := C12_pcbc_in_place_is_ecb toy2 [7, 8] [0, 1] [[2, 3]] rfl (fun a => BitVec.ofNat 8 a)
    ⟨0, 4, 4⟩ ⟨0, 4, 4⟩ rfl (by decide) rfl (by decide)
  exact ⟨toy2, [7, 8], _, ⟨0, 4, 4⟩, _, v', by decide, h, by decide⟩

/-- C12: `SetIV(iv)` puts the object in the state the constructor would have produced. -/
theorem C12_pcbc_setIV (iv iv' v old : Bytes) (h0 : pcbcNew c iv' = .ok old) (h : pcbcNew c iv = .ok v) :
    setIV old iv = .ok v := by
  unfold pcbcNew at h h0
  split at h
  · cases h
  · split at h0
    · cases h0
    · obtain rfl := Res.ok.inj h
      obtain rfl := Res.ok.inj h0
      rename_i h1 h2
      have : iv.length = c.bs := by simpa using h1
      have : iv'.length = c.bs := by simpa using h2
      rw [setIV, if_neg (by omega), copyInto_eq_left _ _ (by omega)]

/-! ### C13 BC -/

theorem bcNew_ok {c : BlockCipher} {iv v : Bytes} (h : bcNew c iv = .ok v) : v = iv ∧ iv.length = c.bs := by
  unfold bcNew at h
  split at h
  · cases h
  · rename_i hl
    have hl' : iv.length = c.bs := by simpa using hl
    have := Res.ok.inj h
    rw [copyInto_eq_left _ _ (by simp [hl'])] at this
    exact ⟨this.symm, hl'⟩

/-- C13: one BC encryption computes the BC chaining equations (dst may equal src). -/
theorem C13_bc_encrypt_spec (iv v : Bytes) (hnew : bcNew c iv = .ok v) (m : Mem)
    (dst src : Slice) (h1 : src.len % c.bs = 0) (h2 : src.len ≤ dst.len) (h3 : NoPartialOverlap dst src) :
    ∃ v', bcEnc c v m dst src =
      .ok (m.write dst.ptr (Spec.bc c.E iv (chunks c.bs (m.read src.ptr src.len))).flatten, v') := by
  obtain ⟨rfl, hl⟩ := bcNew_ok hnew
  have h := ((bcEnc_ok c).crypt true v m dst src hl h1 h2 h3).1
  exact ⟨_, by rw [bcEnc, h, blkRun, bcEncF_spec]⟩

example : bcNew toy2 [7, 8] = .ok [7, 8] ∧ NoPartialOverlap ⟨0, 4, 4⟩ ⟨0, 4, 4⟩ := by decide

/-- C13: the decrypter undoes any history of the encrypter. -/
theorem C13_bc_roundtrip (iv v : Bytes) (hnew : bcNew c iv = .ok v)
    {ins outs ins' outs' : List Bytes} {v1 v2 : Bytes}
    (he : Calls NoPartialOverlap (bcEnc c) v ins outs v1)
    (hd : Calls NoPartialOverlap (bcDec c) v ins' outs' v2)
    (h : ins'.flatten = outs.flatten) : outs'.flatten = ins.flatten := by
  obtain ⟨rfl, hl⟩ := bcNew_ok hnew
  obtain ⟨e1, _, _, e2⟩ := (bcEnc_ok c).calls hl he
  obtain ⟨d1, _⟩ := (bcDec_ok c).calls hl hd
  rw [d1, h, e1, bc_roundtrip c _ _ e2 hl]

example : ∃ outs st, Calls NoPartialOverlap (bcEnc toy2) [7, 8] [[1, 2, 3, 4], [5, 6]] outs st := by
  obtain ⟨o, s, h⟩ := (bcEnc_ok toy2).toDisjoint.calls_exist true [[1, 2, 3, 4], [5, 6]] (by decide) [7, 8] rfl
  exact ⟨o, s, h.mono fun _ _ => NoOverlap.noPartial⟩

/-- C13: exactly when BC panics; it never hangs. -/
theorem C13_bc_panics_iff (iv v : Bytes) (hnew : bcNew c iv = .ok v) (m : Mem) (dst src : Slice) :
    (bcEnc c v m dst src = .panic ↔
      (src.len % c.bs ≠ 0 ∨ dst.len < src.len ∨ ¬ NoPartialOverlap dst src)) ∧
    (bcDec c v m dst src = .panic ↔
      (src.len % c.bs ≠ 0 ∨ dst.len < src.len ∨ ¬ NoPartialOverlap dst src)) ∧
    bcEnc c v m dst src ≠ .hang ∧ bcDec c v m dst src ≠ .hang := by
  obtain ⟨rfl, hl⟩ := bcNew_ok hnew
  have a := (bcEnc_ok c).panics_iff v m dst src hl
  have b := (bcDec_ok c).panics_iff v m dst src hl
  exact ⟨a.1, b.1, a.2.1, b.2.1⟩

/-- C13: `SetIV(iv)` = constructing with iv. -/
theorem C13_bc_setIV (iv iv' v old : Bytes) (h0 : bcNew c iv' = .ok old) (h : bcNew c iv = .ok v) :
    setIV old iv = .ok v := by
  obtain ⟨rfl, hl⟩ := bcNew_ok h
  obtain ⟨rfl, hl'⟩ := bcNew_ok h0
  rw [setIV, if_neg (by omega), copyInto_eq_left _ _ (by omega)]

/-! ### C14 IGE -/

theorem igeNew_ok {c : BlockCipher} {iv : Bytes} {x : Ige} (h : igeNew c iv = .ok x) :
    x = ⟨iv.drop c.bs, iv.take c.bs⟩ ∧ x.Ok c.bs := by
  unfold igeNew at h
  split at h
  · cases h
  · rename_i hl
    obtain rfl := Res.ok.inj h
    refine ⟨rfl, ?_, ?_⟩ <;> simp <;> omega

/-- C14: one IGE encryption computes the IGE chaining equations (dst may equal src). -/
theorem C14_ige_encrypt_spec (iv : Bytes) (x : Ige) (hnew : igeNew c iv = .ok x) (m : Mem)
    (dst src : Slice) (h1 : src.len % c.bs = 0) (h2 : src.len ≤ dst.len) (h3 : NoPartialOverlap dst src) :
    ∃ x', igeEnc c x m dst src = .ok (m.write dst.ptr (Spec.ige c.E (iv.take c.bs) (iv.drop c.bs)
        (chunks c.bs (m.read src.ptr src.len))).flatten, x') := by
  obtain ⟨rfl, hl⟩ := igeNew_ok hnew
  have h := ((ige_ok c.bs c.bs_pos c.E c.lenE).crypt false _ m dst src hl h1 h2 h3).1
  exact ⟨_, by rw [igeEnc, h, blkRun, igeF_spec]⟩

/-- C14: the decrypter undoes any history of the encrypter. -/
theorem C14_ige_roundtrip (iv : Bytes) (x : Ige) (hnew : igeNew c iv = .ok x)
    {ins outs ins' outs' : List Bytes} {x1 x2 : Ige}
    (he : Calls NoPartialOverlap (igeEnc c) x ins outs x1)
    (hd : Calls NoPartialOverlap (igeDec c) x ins' outs' x2)
    (h : ins'.flatten = outs.flatten) : outs'.flatten = ins.flatten := by
  obtain ⟨_, hl⟩ := igeNew_ok hnew
  obtain ⟨e1, _, _, e2⟩ := (ige_ok c.bs c.bs_pos c.E c.lenE).calls hl he
  obtain ⟨d1, _⟩ := igeDec_calls c hl hd
  rw [d1, h, e1, ige_roundtrip c _ _ e2 hl]

example : igeNew toy2 [1, 2, 3, 4] = .ok ⟨[3, 4], [1, 2]⟩ := by decide
example : ∃ outs st, Calls NoPartialOverlap (igeEnc toy2) ⟨[3, 4], [1, 2]⟩ [[1, 2, 3, 4], [5, 6]] outs st := by
  obtain ⟨o, s, h⟩ := (ige_ok 2 (by decide) toy2.E toy2.lenE).toDisjoint.calls_exist false
    [[1, 2, 3, 4], [5, 6]] (by decide) ⟨[3, 4], [1, 2]⟩ ⟨rfl, rfl⟩
  exact ⟨o, s, h.mono fun _ _ => NoOverlap.noPartial⟩

/-- C14: what `SetIV(iv)` really does: it acts as the constructor with the two halves exchanged. -/
theorem C14_ige_setIV_swaps (x : Ige) (a b : Bytes) (ha : a.length = c.bs) (hb : b.length = c.bs) :
    igeSetIV c x (a ++ b) = igeNew c (b ++ a) := by
  rw [igeSetIV, igeNew, if_neg (by simp [ha, hb]; omega), if_neg (by simp [ha, hb]; omega)]
  rw [List.take_left' ha, List.drop_left' ha, List.take_left' hb, List.drop_left' hb]

/-- C14 does not hold for `SetIV`: it does not restore the constructor's state. -/
theorem C14_ige_setIV_violated : ∃ (c : BlockCipher) (iv : Bytes) (x : Ige),
    igeNew c iv = .ok x ∧ igeSetIV c x iv ≠ .ok x :=
  ⟨toy2, [1, 2, 3, 4], ⟨[3, 4], [1, 2]⟩, by decide, by decide⟩

/-! ### C15 GOST R 34.13-2015 CBC -/

theorem g3413cbcNew_ok {c : BlockCipher} {iv v : Bytes} (h : g3413cbcNew c iv = .ok v) :
    v = iv ∧ iv.length = 2 * c.bs := by
  unfold g3413cbcNew at h
  split at h
  · cases h
  · rename_i hl
    have hl' : iv.length = 2 * c.bs := by simpa using hl
    have := Res.ok.inj h
    rw [copyInto_eq_left _ _ (by simp [hl'])] at this
    exact ⟨this.symm, hl'⟩

/-- C15: one GOST CBC encryption computes the chaining equations with a two-block register. -/
theorem C15_g3413cbc_encrypt_spec (iv v : Bytes) (hnew : g3413cbcNew c iv = .ok v) (m : Mem)
    (dst src : Slice) (h1 : src.len % c.bs = 0) (h2 : src.len ≤ dst.len) (h3 : NoPartialOverlap dst src) :
    ∃ v', g3413cbcEnc c v m dst src = .ok (m.write dst.ptr (Spec.g3413cbc c.E (iv.take c.bs) (iv.drop c.bs)
        (chunks c.bs (m.read src.ptr src.len))).flatten, v') := by
  obtain ⟨rfl, hl⟩ := g3413cbcNew_ok hnew
  have h := ((g3413cbcEnc_ok c).crypt true v m dst src hl h1 h2 h3).1
  rw [blkRun, g3413cbcEncF_spec c v _ hl
    (chunks_all_len c.bs c.bs_pos _ (by simpa using Nat.dvd_of_mod_eq_zero h1))] at h
  exact ⟨_, h⟩

/-- C15: one call of the decrypter (backwards loop, in place or not) undoes any history of the encrypter. -/
theorem C15_g3413cbc_roundtrip (iv v : Bytes) (hnew : g3413cbcNew c iv = .ok v)
    {ins outs : List Bytes} {v1 v2 : Bytes} {m m' : Mem} {dst src : Slice}
    (he : Calls NoPartialOverlap (g3413cbcEnc c) v ins outs v1)
    (hd : g3413cbcDec c v m dst src = .ok (m', v2))
    (h : m.read src.ptr src.len = outs.flatten) :
    m' = m.write dst.ptr ins.flatten := by
  obtain ⟨rfl, hl⟩ := g3413cbcNew_ok hnew
  obtain ⟨e1, _, _, e2⟩ := (g3413cbcEnc_ok c).calls hl he
  have hd' := hd
  unfold g3413cbcDec at hd'
  split at hd'
  · cases hd'
  · rename_i h1
    split at hd'
    · cases hd'
    · rename_i h2
      split at hd'
      · cases hd'
      · rename_i h3
        rw [g3413cbcDec_eq c v m dst src hl (by simpa using h1) (by omega)
          (by simpa [NoPartialOverlap] using h3)] at hd
        obtain ⟨rfl, _⟩ := Prod.mk.inj (Res.ok.inj hd)
        rw [h, e1, g3413cbc_roundtrip c _ _ e2 hl]

/-- C15: the decrypter does run on every well-formed call. -/
theorem C15_g3413cbc_decrypt_total (iv v : Bytes) (hnew : g3413cbcNew c iv = .ok v) (m : Mem)
    (dst src : Slice) (h1 : src.len % c.bs = 0) (h2 : src.len ≤ dst.len) (h3 : NoPartialOverlap dst src) :
    ∃ m', g3413cbcDec c v m dst src = .ok (m', v) := by
  obtain ⟨rfl, hl⟩ := g3413cbcNew_ok hnew
  exact ⟨_, g3413cbcDec_eq c v m dst src hl h1 h2 h3⟩

example : g3413cbcNew toy2 [1, 2, 3, 4] = .ok [1, 2, 3, 4] := by decide
example : ∃ outs st, Calls NoPartialOverlap (g3413cbcEnc toy2) [1, 2, 3, 4] [[1, 2, 3, 4], [5, 6]] outs st := by
  obtain ⟨o, s, h⟩ := (g3413cbcEnc_ok toy2).toDisjoint.calls_exist true
    [[1, 2, 3, 4], [5, 6]] (by decide) [1, 2, 3, 4] rfl
  exact ⟨o, s, h.mono fun _ _ => NoOverlap.noPartial⟩

/-! ### C16 OFBNLF -/

theorem ofbnlfNew_ok {newKey : Bytes → Option BlockCipher} {key iv v : Bytes} {b : BlockCipher}
    (h : ofbnlfNew newKey key iv = .ok (b, v)) : newKey key = some b ∧ v = iv ∧ iv.length = b.bs := by
  unfold ofbnlfNew at h
  cases hk : newKey key with
  | none => rw [hk] at h; cases h
  | some b' =>
    rw [hk] at h
    simp only at h
    split at h
    · cases h
    · rename_i hl
      have hl' : iv.length = b'.bs := by simpa using hl
      obtain ⟨rfl, rfl⟩ := Prod.mk.inj (Res.ok.inj h)
      rw [copyInto_eq_left _ _ (by simp [hl'])]
      exact ⟨rfl, rfl, hl'⟩

/-- C16: one OFBNLF encryption encrypts block `i` under the key `E^(i+1)(iv)`; `underE newKey k p` is
"encrypt `p` with the cipher that `newKey` builds from `k`".  `KeyOK`: a block is an acceptable key. -/
theorem C16_ofbnlf_encrypt_spec (newKey : Bytes → Option BlockCipher) (key iv v : Bytes) (b : BlockCipher)
    (hnew : ofbnlfNew newKey key iv = .ok (b, v)) (hk : KeyOK newKey b.bs) (m : Mem)
    (dst src : Slice) (h1 : src.len % b.bs = 0) (h2 : src.len ≤ dst.len) (h3 : NoPartialOverlap dst src) :
    ∃ v', ofbnlfEnc newKey b v m dst src = .ok (m.write dst.ptr (Spec.ofbnlf b.E (underE newKey) iv
        (chunks b.bs (m.read src.ptr src.len))).flatten, v') := by
  obtain ⟨_, rfl, hl⟩ := ofbnlfNew_ok hnew
  have h := ((ofbnlfEnc_ok b newKey hk).crypt true v m dst src hl h1 h2 h3).1
  exact ⟨_, by rw [ofbnlfEnc, h, blkRun, ofbnlfEncF_spec]⟩

/-- C16: the decrypter undoes any history of the encrypter. -/
theorem C16_ofbnlf_roundtrip (newKey : Bytes → Option BlockCipher) (key iv v : Bytes) (b : BlockCipher)
    (hnew : ofbnlfNew newKey key iv = .ok (b, v)) (hk : KeyOK newKey b.bs)
    {ins outs ins' outs' : List Bytes} {v1 v2 : Bytes}
    (he : Calls NoPartialOverlap (ofbnlfEnc newKey b) v ins outs v1)
    (hd : Calls NoPartialOverlap (ofbnlfDec newKey b) v ins' outs' v2)
    (h : ins'.flatten = outs.flatten) : outs'.flatten = ins.flatten := by
  obtain ⟨_, rfl, hl⟩ := ofbnlfNew_ok hnew
  obtain ⟨e1, _, _, e2⟩ := (ofbnlfEnc_ok b newKey hk).calls hl he
  obtain ⟨d1, _⟩ := (ofbnlfDec_ok b newKey hk).calls hl hd
  rw [d1, h, e1, ofbnlf_roundtrip b newKey hk _ _ e2 hl]

theorem toyKeyed_ok (n : Nat) (h : 0 < n) : KeyOK (toyKeyed n) n := by
  intro k hk
  refine ⟨xorCipher k (by omega), ?_, hk⟩
  rw [toyKeyed, dif_pos ⟨hk, h⟩]

example : ∃ b v, ofbnlfNew (toyKeyed 2) [1, 2] [3, 4] = .ok (b, v) ∧ KeyOK (toyKeyed 2) b.bs := by
  refine ⟨xorCipher [1, 2] (by decide), [3, 4], ?_, toyKeyed_ok 2 (by decide)⟩
  simp [ofbnlfNew, toyKeyed, xorCipher, copyInto]

/-- C16: a key the block cipher refuses makes `CryptBlocks` panic (there is no error path). -/
theorem C16_ofbnlf_key_refused_panics (newKey : Bytes → Option BlockCipher) (b : BlockCipher) (iv : Bytes)
    (m : Mem) (dst src : Slice) (h0 : 0 < src.len) (h : newKey (b.E iv) = none) :
    ofbnlfEnc newKey b iv m dst src = .panic := by
  unfold ofbnlfEnc cryptBlocks
  split
  · rfl
  · split
    · rfl
    · split
      · rfl
      · obtain ⟨n, hn⟩ : ∃ n, src.len = n + 1 := ⟨src.len - 1, by omega⟩
        rw [hn, segLoop, if_neg (by omega)]
        simp [ofbnlfEncStep, h]

example : toyKeyed 3 ((xorCipher [1, 2] (by decide)).E [3, 4]) = none := by
  rw [toyKeyed, dif_neg]; decide

/-! ### C17 feeding in pieces -/

/-- C17 for ECB. -/
theorem C17_ecb_pieces {ins outs ins' outs' : List Bytes}
    (h1 : Calls NoPartialOverlap (ecbEnc c) () ins outs ())
    (h2 : Calls NoPartialOverlap (ecbEnc c) () ins' outs' ())
    (h : ins.flatten = ins'.flatten) : outs.flatten = outs'.flatten := by
  rw [((ecbEnc_ok c).calls trivial h1).1, ((ecbEnc_ok c).calls trivial h2).1, h]

/-- C17 for ECB decryption. -/
theorem C17_ecb_dec_pieces {ins outs ins' outs' : List Bytes}
    (h1 : Calls NoPartialOverlap (ecbDec c) () ins outs ())
    (h2 : Calls NoPartialOverlap (ecbDec c) () ins' outs' ())
    (h : ins.flatten = ins'.flatten) : outs.flatten = outs'.flatten := by
  rw [((ecbDec_ok c).calls trivial h1).1, ((ecbDec_ok c).calls trivial h2).1, h]

/-- C17 for PCBC, both directions, with non-overlapping buffers (in place PCBC is wrong, see C12). -/
theorem C17_pcbc_pieces_partial (iv : Bytes) (hiv : pcbcNew c iv = .ok iv)
    {ins outs ins' outs' : List Bytes} {v1 v2 : Bytes}
    (hh : (Calls NoOverlap (pcbcEnc c) iv ins outs v1 ∧ Calls NoOverlap (pcbcEnc c) iv ins' outs' v2) ∨
      (Calls NoOverlap (pcbcDec c) iv ins outs v1 ∧ Calls NoOverlap (pcbcDec c) iv ins' outs' v2))
    (h : ins.flatten = ins'.flatten) : outs.flatten = outs'.flatten ∧ v1 = v2 := by
  have hl : iv.length = c.bs := by
    unfold pcbcNew at hiv; split at hiv
    · cases hiv
    · rename_i h; simpa using h
  rcases hh with ⟨h1, h2⟩ | ⟨h1, h2⟩
  · obtain ⟨a1, a2, _⟩ := (pcbcEnc_ok c).callsDisjoint hl h1
    obtain ⟨b1, b2, _⟩ := (pcbcEnc_ok c).callsDisjoint hl h2
    rw [a1, a2, b1, b2, h]; exact ⟨rfl, rfl⟩
  · obtain ⟨a1, a2, _⟩ := (pcbcDec_ok c).callsDisjoint hl h1
    obtain ⟨b1, b2, _⟩ := (pcbcDec_ok c).callsDisjoint hl h2
    rw [a1, a2, b1, b2, h]; exact ⟨rfl, rfl⟩

/-- C17 for BC, both directions. -/
theorem C17_bc_pieces (iv v : Bytes) (hnew : bcNew c iv = .ok v)
    {ins outs ins' outs' : List Bytes} {v1 v2 : Bytes}
    (hh : (Calls NoPartialOverlap (bcEnc c) v ins outs v1 ∧ Calls NoPartialOverlap (bcEnc c) v ins' outs' v2) ∨
      (Calls NoPartialOverlap (bcDec c) v ins outs v1 ∧ Calls NoPartialOverlap (bcDec c) v ins' outs' v2))
    (h : ins.flatten = ins'.flatten) : outs.flatten = outs'.flatten ∧ v1 = v2 := by
  obtain ⟨rfl, hl⟩ := bcNew_ok hnew
  rcases hh with ⟨h1, h2⟩ | ⟨h1, h2⟩
  · obtain ⟨a1, a2, _⟩ := (bcEnc_ok c).calls hl h1
    obtain ⟨b1, b2, _⟩ := (bcEnc_ok c).calls hl h2
    rw [a1, a2, b1, b2, h]; exact ⟨rfl, rfl⟩
  · obtain ⟨a1, a2, _⟩ := (bcDec_ok c).calls hl h1
    obtain ⟨b1, b2, _⟩ := (bcDec_ok c).calls hl h2
    rw [a1, a2, b1, b2, h]; exact ⟨rfl, rfl⟩

/-- C17 for IGE, both directions. -/
theorem C17_ige_pieces (iv : Bytes) (x : Ige) (hnew : igeNew c iv = .ok x)
    {ins outs ins' outs' : List Bytes} {x1 x2 : Ige}
    (hh : (Calls NoPartialOverlap (igeEnc c) x ins outs x1 ∧
            Calls NoPartialOverlap (igeEnc c) x ins' outs' x2) ∨
      (Calls NoPartialOverlap (igeDec c) x ins outs x1 ∧ Calls NoPartialOverlap (igeDec c) x ins' outs' x2))
    (h : ins.flatten = ins'.flatten) : outs.flatten = outs'.flatten ∧ x1 = x2 := by
  obtain ⟨_, hl⟩ := igeNew_ok hnew
  rcases hh with ⟨h1, h2⟩ | ⟨h1, h2⟩
  · obtain ⟨a1, a2, _⟩ := (ige_ok c.bs c.bs_pos c.E c.lenE).calls hl h1
    obtain ⟨b1, b2, _⟩ := (ige_ok c.bs c.bs_pos c.E c.lenE).calls hl h2
    rw [a1, a2, b1, b2, h]; exact ⟨rfl, rfl⟩
  · obtain ⟨a1, a2, _⟩ := igeDec_calls c hl h1
    obtain ⟨b1, b2, _⟩ := igeDec_calls c hl h2
    have : x1.swap = x2.swap := by rw [a2, b2, h]
    refine ⟨by rw [a1, b1, h], ?_⟩
    cases x1; cases x2; simp only [Ige.swap, Ige.mk.injEq] at this ⊢
    exact ⟨this.2, this.1⟩

/-- C17 for GOST CBC encryption. -/
theorem C17_g3413cbc_enc_pieces (iv v : Bytes) (hnew : g3413cbcNew c iv = .ok v)
    {ins outs ins' outs' : List Bytes} {v1 v2 : Bytes}
    (h1 : Calls NoPartialOverlap (g3413cbcEnc c) v ins outs v1)
    (h2 : Calls NoPartialOverlap (g3413cbcEnc c) v ins' outs' v2)
    (h : ins.flatten = ins'.flatten) : outs.flatten = outs'.flatten ∧ v1 = v2 := by
  obtain ⟨rfl, hl⟩ := g3413cbcNew_ok hnew
  obtain ⟨a1, a2, _⟩ := (g3413cbcEnc_ok c).calls hl h1
  obtain ⟨b1, b2, _⟩ := (g3413cbcEnc_ok c).calls hl h2
  rw [a1, a2, b1, b2, h]; exact ⟨rfl, rfl⟩

/-- C17 for OFBNLF, both directions. -/
theorem C17_ofbnlf_pieces (newKey : Bytes → Option BlockCipher) (key iv v : Bytes) (b : BlockCipher)
    (hnew : ofbnlfNew newKey key iv = .ok (b, v)) (hk : KeyOK newKey b.bs)
    {ins outs ins' outs' : List Bytes} {v1 v2 : Bytes}
    (hh : (Calls NoPartialOverlap (ofbnlfEnc newKey b) v ins outs v1 ∧
            Calls NoPartialOverlap (ofbnlfEnc newKey b) v ins' outs' v2) ∨
      (Calls NoPartialOverlap (ofbnlfDec newKey b) v ins outs v1 ∧
            Calls NoPartialOverlap (ofbnlfDec newKey b) v ins' outs' v2))
    (h : ins.flatten = ins'.flatten) : outs.flatten = outs'.flatten ∧ v1 = v2 := by
  obtain ⟨_, rfl, hl⟩ := ofbnlfNew_ok hnew
  rcases hh with ⟨h1, h2⟩ | ⟨h1, h2⟩
  · obtain ⟨a1, a2, _⟩ := (ofbnlfEnc_ok b newKey hk).calls hl h1
    obtain ⟨b1, b2, _⟩ := (ofbnlfEnc_ok b newKey hk).calls hl h2
    rw [a1, a2, b1, b2, h]; exact ⟨rfl, rfl⟩
  · obtain ⟨a1, a2, _⟩ := (ofbnlfDec_ok b newKey hk).calls hl h1
    obtain ⟨b1, b2, _⟩ := (ofbnlfDec_ok b newKey hk).calls hl h2
    rw [a1, a2, b1, b2, h]; exact ⟨rfl, rfl⟩

/-- C17 does not hold for the GOST CBC decrypter: its register is never advanced, so decrypting in two calls
differs from decrypting in one. -/
theorem C17_g3413cbc_dec_pieces_violated : ∃ (c : BlockCipher) (v : Bytes) (ins outs ins' outs' : List Bytes),
    g3413cbcNew c v = .ok v ∧ Calls NoPartialOverlap (g3413cbcDec c) v ins outs v ∧
      Calls NoPartialOverlap (g3413cbcDec c) v ins' outs' v ∧
      ins.flatten = ins'.flatten ∧ outs.flatten ≠ outs'.flatten := by
  let m : Mem := fun a => BitVec.ofNat 8 a
  have k1 := g3413cbcDec_eq toy2 [7, 8, 9, 10] m ⟨20, 4, 4⟩ ⟨0, 4, 4⟩ rfl rfl (by decide) (by decide)
  have k2 := g3413cbcDec_eq toy2 [7, 8, 9, 10] m ⟨20, 2, 2⟩ ⟨0, 2, 2⟩ rfl rfl (by decide) (by decide)
  have k3 := g3413cbcDec_eq toy2 [7, 8, 9, 10] m ⟨20, 2, 2⟩ ⟨2, 2, 2⟩ rfl rfl (by decide) (by decide)
  exact ⟨toy2, [7, 8, 9, 10], _, _, _, _, by decide,
    .cons (by decide) k1 (.nil _), .cons (by decide) k2 (.cons (by decide) k3 (.nil _)), by decide, by decide⟩

example : ∃ o1 s1 o2 s2, Calls NoPartialOverlap (bcEnc toy2) [7, 8] [[1, 2, 3, 4], [5, 6]] o1 s1 ∧
    Calls NoPartialOverlap (bcEnc toy2) [7, 8] [[1, 2], [3, 4, 5, 6]] o2 s2 := by
  obtain ⟨o, s, h⟩ := (bcEnc_ok toy2).toDisjoint.calls_exist true [[1, 2, 3, 4], [5, 6]] (by decide) [7, 8] rfl
  obtain ⟨o', s', h'⟩ := (bcEnc_ok toy2).toDisjoint.calls_exist true [[1, 2], [3, 4, 5, 6]] (by decide) [7, 8] rfl
  exact ⟨o, s, o', s', h.mono fun _ _ => NoOverlap.noPartial, h'.mono fun _ _ => NoOverlap.noPartial⟩

end Verif.Mode
