import Verif.Mode.WrapLemmas
import Verif.Mode.StreamHelp
/-
C30 (key wrap, RFC 3394) and C31 (key wrap with padding, RFC 5649).  The specification is WrapSpec.lean.
`wrapNew`/`wrapPadNew` are the constructors, `wrapEnc`/`wrapDec`/`wrapPadEnc`/`wrapPadDec` are `CryptBlocks`.
-/
namespace Verif.Mode

/-- What `wrapNew` keeps of the IV. -/
theorem wrapNew_take (c : BlockCipher) (h16 : c.bs = 16) (iv : Option Bytes) (x : Bytes) (h : wrapNew c iv = .ok x) :
    x.take 8 = Spec.ivOf iv ∧ (Spec.ivOf iv).length = 8 := by
  unfold wrapNew at h
  unfold Spec.ivOf
  change _ = List.take 8 (iv.getD wrapDefaultIv) ∧ (List.take 8 (iv.getD wrapDefaultIv)).length = 8
  simp only at h
  generalize iv.getD wrapDefaultIv = v at h ⊢
  by_cases hv : v.length < 8
  · rw [if_pos hv] at h; simp at h
  · rw [if_neg hv] at h
    injection h with h
    subst h
    refine ⟨?_, by simp; omega⟩
    rw [copyInto, h16, List.length_replicate, List.take_append_of_le_length (by simp; omega), List.take_take]
    rfl

theorem read_eq_flatten_chunks (x : Bytes) : x = (chunks 8 x).flatten := (chunks_flatten 8 (by decide) x).symm

theorem wrapEnc_eq (c : BlockCipher) (h16 : c.bs = 16) (x : Bytes) (hx : (x.take 8).length = 8) (m : Mem)
    (dst src : Slice) (h8 : src.len % 8 = 0) (h1 : 16 ≤ src.len) (h2 : src.len ≤ 2 ^ 31) (h3 : src.len + 8 ≤ dst.len) :
    wrapEnc c x m dst src = .ok (m.write dst.ptr (Spec.keyWrap c.E (x.take 8) (m.read src.ptr src.len))) := by
  have hl : (m.read src.ptr src.len).length = src.len := Mem.read_length ..
  have hc := chunks8_all (m.read src.ptr src.len) (by rw [hl]; exact h8)
  have hn := chunks8_length (m.read src.ptr src.len) (by rw [hl]; exact h8)
  rw [hl] at hn
  have hk := wrapEncLoop_KR c h16 (src.len / 8) 6 (by decide)
    (s := (x.take 8 ++ List.replicate 8 0, m.read src.ptr src.len))
    (t := (x.take 8, chunks 8 (m.read src.ptr src.len)))
    ⟨by rw [List.length_append, hx]; rfl, List.take_left' hx, hn, hc, read_eq_flatten_chunks _⟩ (by omega)
  unfold wrapEnc
  rw [if_neg (by simpa using h8), if_neg (by omega), if_neg (by unfold wrapMax; omega), if_neg (by omega),
    if_neg (by omega)]
  simp only
  rw [hk.a, hk.r, ← hn]
  congr 1
  unfold Spec.keyWrap Spec.kw
  rw [Mem.write_append]
  have l1 := hk.a8
  rw [← hn] at l1
  rw [l1]
  exact Mem.write_comm _ _ _ _ _ (Or.inl (by rw [l1]; exact Nat.le_refl _))

/-- C30: wrapping writes the RFC 3394 value to dst (`len+8` bytes) and nothing else, for every aliasing of the
two buffers. -/
theorem C30_wrap_spec (c : BlockCipher) (h16 : c.bs = 16) (iv : Option Bytes) (x : Bytes) (hnew : wrapNew c iv = .ok x)
    (m : Mem) (dst src : Slice) (h8 : 8 ∣ src.len) (h1 : 16 ≤ src.len) (h2 : src.len ≤ 2 ^ 31)
    (h3 : src.len + 8 ≤ dst.len) :
    wrapEnc c x m dst src = .ok (m.write dst.ptr
      (Spec.keyWrap c.E (Spec.ivOf iv) (m.read src.ptr src.len))) := by
  obtain ⟨e, hl⟩ := wrapNew_take c h16 iv x hnew
  have := wrapEnc_eq c h16 x (by rw [e]; exact hl) m dst src (Nat.mod_eq_zero_of_dvd h8) h1 h2 h3
  rw [e] at this
  exact this

/-- C30: which calls panic. -/
theorem C30_wrap_panics_iff (c : BlockCipher) (h16 : c.bs = 16) (iv : Option Bytes) (x : Bytes)
    (hnew : wrapNew c iv = .ok x) (m : Mem) (dst src : Slice) :
    wrapEnc c x m dst src = .panic ↔
      ¬ 8 ∣ src.len ∨ src.len < 16 ∨ 2 ^ 31 < src.len ∨ dst.len < src.len + 8 := by
  constructor
  · intro h
    apply Classical.byContradiction
    intro hh
    rw [C30_wrap_spec c h16 iv x hnew m dst src (Classical.byContradiction fun h' => hh (Or.inl h')) (by omega)
      (by omega) (by omega)] at h
    simp at h
  · intro h
    unfold wrapEnc wrapMax
    by_cases h0 : src.len % 8 = 0
    · rw [if_neg (by simpa using h0)]
      by_cases h1 : dst.len < src.len + 8
      · rw [if_pos h1]
      · rw [if_neg h1, if_pos]
        rcases h with h | h | h | h
        · exact absurd (Nat.dvd_of_mod_eq_zero h0) h
        · exact Or.inl h
        · exact Or.inr h
        · omega
    · rw [if_pos h0]

theorem wrapDecBlocks_eq (c : BlockCipher) (h16 : c.bs = 16) (m : Mem) (dst src : Slice) (h8 : src.len % 8 = 0)
    (h1 : 24 ≤ src.len) (h2 : src.len ≤ 2 ^ 31 + 8) :
    wrapDecBlocks c m dst src = .ok
      ((Spec.kwInv c.D (m.read src.ptr 8) (chunks 8 (m.read (src.ptr + 8) (src.len - 8)))).1,
       m.write dst.ptr
        (Spec.kwInv c.D (m.read src.ptr 8) (chunks 8 (m.read (src.ptr + 8) (src.len - 8)))).2.flatten) := by
  have hl : (m.read (src.ptr + 8) (src.len - 8)).length = src.len - 8 := Mem.read_length ..
  have hc := chunks8_all (m.read (src.ptr + 8) (src.len - 8)) (by rw [hl]; omega)
  have hn := chunks8_length (m.read (src.ptr + 8) (src.len - 8)) (by rw [hl]; omega)
  rw [hl] at hn
  have hk := wrapDecLoop_KR c h16 ((src.len - 8) / 8) 6 (by decide)
    (s := (m.read src.ptr 8 ++ List.replicate 8 0, m.read (src.ptr + 8) (src.len - 8)))
    (t := (m.read src.ptr 8, chunks 8 (m.read (src.ptr + 8) (src.len - 8))))
    ⟨by simp, List.take_left' (Mem.read_length ..), hn, hc, read_eq_flatten_chunks _⟩ (by omega)
  unfold wrapDecBlocks
  simp only
  rw [if_neg (by unfold wrapMax; omega), if_neg (by omega), Nat.mul_comm 6, hk.a, hk.r]
  unfold Spec.kwInv
  rw [hn]

/-- C30: what unwrapping does with any ciphertext: the RFC 3394 inverse is computed; if the recovered IV is the
expected one the plaintext is delivered, otherwise dst receives only zeros. -/
theorem C30_unwrap_exact (c : BlockCipher) (h16 : c.bs = 16) (iv : Option Bytes) (x : Bytes)
    (hnew : wrapNew c iv = .ok x) (m : Mem) (dst src : Slice) (h8 : 8 ∣ src.len) (h1 : 24 ≤ src.len)
    (h2 : src.len ≤ 2 ^ 31 + 8) (h3 : src.len ≤ dst.len + 8) :
    let got := Spec.kwInv c.D (m.read src.ptr 8) (chunks 8 (m.read (src.ptr + 8) (src.len - 8)))
    wrapDec c x m dst src = .ok (m.write dst.ptr
      (if got.1 = Spec.ivOf iv then got.2.flatten else List.replicate (src.len - 8) 0)) := by
  obtain ⟨e, hl⟩ := wrapNew_take c h16 iv x hnew
  have h8' := Nat.mod_eq_zero_of_dvd h8
  have hlen : (Spec.kwInv c.D (m.read src.ptr 8) (chunks 8 (m.read (src.ptr + 8) (src.len - 8)))).2.flatten.length =
      src.len - 8 := by
    have hl : (m.read (src.ptr + 8) (src.len - 8)).length = src.len - 8 := Mem.read_length ..
    have hc := chunks8_all (m.read (src.ptr + 8) (src.len - 8)) (by rw [hl]; omega)
    have hn := chunks8_length (m.read (src.ptr + 8) (src.len - 8)) (by rw [hl]; omega)
    rw [hl] at hn
    have hk := wrapDecLoop_KR c h16 ((src.len - 8) / 8) 6 (by decide)
      (s := (m.read src.ptr 8 ++ List.replicate 8 0, m.read (src.ptr + 8) (src.len - 8)))
      (t := (m.read src.ptr 8, chunks 8 (m.read (src.ptr + 8) (src.len - 8))))
      ⟨by simp, List.take_left' (Mem.read_length ..), hn, hc, read_eq_flatten_chunks _⟩ (by omega)
    have h1 := all8_flatten_length hk.all
    have h2 := hk.n
    unfold Spec.kwInv
    rw [hn]
    omega
  simp only
  unfold wrapDec
  rw [if_neg (by simpa using h8'), if_neg (by omega), if_neg (by omega), wrapDecBlocks_eq c h16 m dst src h8' h1 h2]
  simp only
  rw [if_neg (by omega), e]
  by_cases hg : (Spec.kwInv c.D (m.read src.ptr 8) (chunks 8 (m.read (src.ptr + 8) (src.len - 8)))).1 =
      Spec.ivOf iv
  · rw [if_neg (fun h => h hg), if_pos hg]
  · rw [if_pos hg, if_neg hg, Mem.write_write_same _ _ _ _ (by rw [hlen]; simp)]

/-- The wrapped value, cut the way unwrapping cuts it. -/
theorem keyWrap_cut (c : BlockCipher) (h16 : c.bs = 16) (iv p : Bytes) (hiv : iv.length = 8) (hp : p.length % 8 = 0) :
    (Spec.keyWrap c.E iv p).length = p.length + 8 ∧
    (Spec.keyWrap c.E iv p).take 8 = (Spec.kw c.E iv (chunks 8 p)).1 ∧
    chunks 8 ((Spec.keyWrap c.E iv p).drop 8) = (Spec.kw c.E iv (chunks 8 p)).2 := by
  obtain ⟨_, hs⟩ := kwInv_kw c h16 iv hiv (chunks 8 p) (chunks8_all p hp)
  have h1 := all8_flatten_length hs.all
  have h2 := hs.n
  rw [chunks8_length p hp] at h2
  unfold Spec.keyWrap
  refine ⟨?_, List.take_left' hs.a, ?_⟩
  · rw [List.length_append, hs.a]; omega
  · rw [List.drop_left' hs.a, chunks_of_all8 _ hs.all]

theorem kwInv_of_wrapped (c : BlockCipher) (h16 : c.bs = 16) (iv p : Bytes) (hiv : iv.length = 8)
    (hp : p.length % 8 = 0) (m : Mem) (src : Slice) (hsl : src.len = p.length + 8)
    (hs : m.read src.ptr src.len = Spec.keyWrap c.E iv p) :
    Spec.kwInv c.D (m.read src.ptr 8) (chunks 8 (m.read (src.ptr + 8) (src.len - 8))) = (iv, chunks 8 p) := by
  obtain ⟨_, h2, h3⟩ := keyWrap_cut c h16 iv p hiv hp
  have e1 : m.read src.ptr 8 = (m.read src.ptr src.len).take 8 := by
    rw [Mem.read_take]; congr 1; omega
  rw [e1, ← Mem.read_drop, hs, h2, h3]
  exact (kwInv_kw c h16 iv hiv (chunks 8 p) (chunks8_all p hp)).1

/-- C30: unwrapping the RFC 3394 value of `p` (as produced by wrapping, `C30_wrap_spec`) delivers `p`, for every
aliasing of the buffers. -/
theorem C30_roundtrip (c : BlockCipher) (h16 : c.bs = 16) (iv : Option Bytes) (x : Bytes)
    (hnew : wrapNew c iv = .ok x) (p : Bytes) (hp : 8 ∣ p.length) (h1 : 16 ≤ p.length) (h2 : p.length ≤ 2 ^ 31)
    (m : Mem) (dst src : Slice) (hsl : src.len = p.length + 8) (h3 : p.length ≤ dst.len)
    (hs : m.read src.ptr src.len = Spec.keyWrap c.E (Spec.ivOf iv) p) :
    wrapDec c x m dst src = .ok (m.write dst.ptr p) := by
  have hp' := Nat.mod_eq_zero_of_dvd hp
  obtain ⟨_, hl⟩ := wrapNew_take c h16 iv x hnew
  have e := C30_unwrap_exact c h16 iv x hnew m dst src (by rw [hsl]; exact Nat.dvd_add hp (by decide)) (by omega)
    (by omega) (by omega)
  simp only at e
  rw [kwInv_of_wrapped c h16 _ p hl hp' m src hsl hs] at e
  rw [e, if_pos rfl, ← read_eq_flatten_chunks]

/-- C30: wrap, then unwrap the result from the buffer it was written to: two calls, any buffers. -/
theorem C30_wrap_then_unwrap (c : BlockCipher) (h16 : c.bs = 16) (iv : Option Bytes) (x : Bytes)
    (hnew : wrapNew c iv = .ok x) (m : Mem) (mid src dst : Slice) (h8 : 8 ∣ src.len) (h1 : 16 ≤ src.len)
    (h2 : src.len ≤ 2 ^ 31) (hm : mid.len = src.len + 8) (hd : src.len ≤ dst.len) :
    ∃ m1 m2, wrapEnc c x m mid src = .ok m1 ∧ wrapDec c x m1 dst mid = .ok m2 ∧
      m2.read dst.ptr src.len = m.read src.ptr src.len := by
  have hl : (m.read src.ptr src.len).length = src.len := Mem.read_length ..
  obtain ⟨_, hl8⟩ := wrapNew_take c h16 iv x hnew
  refine ⟨_, _, C30_wrap_spec c h16 iv x hnew m mid src h8 h1 h2 (by omega),
    C30_roundtrip c h16 iv x hnew (m.read src.ptr src.len) (by rw [hl]; exact h8) (by rw [hl]; exact h1)
      (by rw [hl]; exact h2) _ dst mid (by rw [hl]; exact hm) (by rw [hl]; exact hd) ?_, ?_⟩
  · rw [Mem.read_write_self' _ _ _ _ (by
      rw [(keyWrap_cut c h16 _ _ hl8 (by rw [hl]; exact Nat.mod_eq_zero_of_dvd h8)).1, hl, hm])]
  · exact Mem.read_write_self' _ _ _ _ hl

/-- C30: ciphertexts of 8 or 16 bytes (too short for RFC 3394) are answered with zeros. -/
theorem C30_unwrap_short (c : BlockCipher) (x : Bytes) (m : Mem) (dst src : Slice) (h8 : 8 ∣ src.len)
    (h0 : 0 < src.len) (h1 : src.len < 24) (h3 : src.len ≤ dst.len + 8) :
    wrapDec c x m dst src = .ok (m.write dst.ptr (List.replicate (src.len - 8) 0)) := by
  unfold wrapDec
  rw [if_neg (by simpa using Nat.mod_eq_zero_of_dvd h8), if_neg (by omega), if_neg (by omega)]
  have : wrapDecBlocks c m dst src = .err := by
    unfold wrapDecBlocks
    simp only
    rw [if_pos (by omega)]
  rw [this]

theorem wrapEncStep_8 (c : BlockCipher) (h8 : c.bs = 8) (t i : Nat) (s : Bytes × Bytes) (h1 : s.1.length = 16)
    (h2 : i + 8 ≤ s.2.length) :
    (wrapEncStep c t i s).1.length = 16 ∧ (wrapEncStep c t i s).2 = s.2 := by
  have lb : ((s.2.drop i).take 8).length = 8 := by simp; omega
  have lE : (c.E (s.1.take 8)).length = 8 := by rw [c.lenE _ (by simp [h1, h8]), h8]
  have e : wrapCrypt c.bs c.E (copyAt s.1 8 ((s.2.drop i).take 8)) = c.E (s.1.take 8) ++ (s.2.drop i).take 8 := by
    unfold wrapCrypt
    rw [copyAt8 _ _ h1 lb, h8, List.take_left' (by simp [h1]), List.drop_left' (by simp [h1])]
  have lx : ∀ B : Bytes, (wrapXorT B t).length = B.length := by
    intro B; unfold wrapXorT; simp only; split <;> simp
  have dx : ∀ B : Bytes, (wrapXorT B t).drop 8 = B.drop 8 := by
    intro B; unfold wrapXorT; simp only
    split
    · rw [List.drop_set_of_lt (by decide), List.drop_set_of_lt (by decide), List.drop_set_of_lt (by decide),
        List.drop_set_of_lt (by decide)]
    · rw [List.drop_set_of_lt (by decide)]
  unfold wrapEncStep
  simp only
  rw [e]
  refine ⟨by rw [lx, List.length_append, lE, lb], ?_⟩
  rw [dx, List.drop_left' lE]
  unfold copyAt copyInto
  rw [List.take_of_length_le (show ((s.2.drop i).take 8).length ≤ (s.2.drop i).length from List.length_take_le' _ _), lb,
    List.take_append_drop, List.take_append_drop]

/-- C30 finding: the constructor accepts ciphers with 8-byte blocks; wrapping then leaves the whole payload in
clear: whatever the cipher and the key, bytes 8.. of the result are the plaintext. -/
theorem C30_wrap_8byte_cipher_cleartext_violated (c : BlockCipher) (h : c.bs = 8) (iv : Option Bytes) (x : Bytes)
    (hnew : wrapNew c iv = .ok x) (m : Mem) (dst src : Slice) (h8 : 8 ∣ src.len) (h1 : 16 ≤ src.len)
    (h2 : src.len ≤ 2 ^ 31) (h3 : src.len + 8 ≤ dst.len) :
    ∃ m', wrapEnc c x m dst src = .ok m' ∧ m'.read (dst.ptr + 8) src.len = m.read src.ptr src.len := by
  have h8' := Nat.mod_eq_zero_of_dvd h8
  have hx : x.length = 8 := by
    unfold wrapNew at hnew
    simp only at hnew
    split at hnew
    · simp at hnew
    · injection hnew with hnew; rw [← hnew]; simp [h]
  have pass : ∀ n i t (s : Bytes × Bytes), s.1.length = 16 → i + 8 * n ≤ s.2.length →
      (wrapEncPass c n i t s).1.length = 16 ∧ (wrapEncPass c n i t s).2 = s.2 := by
    intro n
    induction n with
    | zero => intro i t s a _; exact ⟨a, rfl⟩
    | succ n ih =>
      intro i t s a b
      obtain ⟨a', b'⟩ := wrapEncStep_8 c h t i s a (by omega)
      have := ih (i + 8) (t + 1) (wrapEncStep c t i s) a' (by rw [b']; omega)
      rw [wrapEncPass, this.2, b']
      exact ⟨this.1, rfl⟩
  have loop : ∀ n j t (s : Bytes × Bytes), s.1.length = 16 → 8 * n ≤ s.2.length →
      (wrapEncLoop c n j t s).1.length = 16 ∧ (wrapEncLoop c n j t s).2 = s.2 := by
    intro n j
    induction j with
    | zero => intro t s a _; exact ⟨a, rfl⟩
    | succ j ih =>
      intro t s a b
      obtain ⟨a', b'⟩ := pass n 0 t s a (by omega)
      have := ih (t + n) (wrapEncPass c n 0 t s) a' (by rw [b']; omega)
      rw [wrapEncLoop, this.2, b']
      exact ⟨this.1, rfl⟩
  have := loop (src.len / 8) 6 1 (x.take 8 ++ List.replicate 8 0, m.read src.ptr src.len) (by simp [hx])
    (by simp only [Mem.read_length]; omega)
  refine ⟨_, by
    unfold wrapEnc
    rw [if_neg (by simpa using h8'), if_neg (by omega), if_neg (by unfold wrapMax; omega), if_neg (by omega),
      if_neg (by omega)], ?_⟩
  rw [this.2, Mem.read_write_disjoint _ _ _ _ _ (by right; rw [List.length_take, this.1]; omega),
    Mem.read_write_self' _ _ _ _ (Mem.read_length ..)]

/-! ### C31 -/

theorem wrapAiv_eq (icv : Bytes) (n : Nat) : wrapAiv icv n = icv.take 4 ++ Spec.natBe 4 n := by
  have e : ∀ k, n >>> k = n / 2 ^ k := fun k => Nat.shiftRight_eq_div_pow n k
  simp only [wrapAiv, Spec.natBe, e, List.nil_append, List.cons_append, Nat.div_div_eq_div_mul]

theorem wrapPadNew_take (c : BlockCipher) (h16 : c.bs = 16) (iv : Option Bytes) (x : Bytes)
    (h : wrapPadNew c iv = .ok x) :
    x.take 4 = Spec.icvOf iv ∧ (Spec.icvOf iv).length = 4 := by
  unfold wrapPadNew at h
  unfold Spec.icvOf
  change _ = List.take 4 (iv.getD wrapDefaultAiv) ∧ (List.take 4 (iv.getD wrapDefaultAiv)).length = 4
  simp only at h
  generalize iv.getD wrapDefaultAiv = v at h ⊢
  by_cases hv : v.length < 4
  · rw [if_pos hv] at h; simp at h
  · rw [if_neg hv] at h
    injection h with h
    subst h
    refine ⟨?_, by simp; omega⟩
    rw [copyInto, h16, List.length_replicate, List.take_append_of_le_length (by simp; omega), List.take_take]
    rfl

/-- C31 (partial): for plaintexts whose length is a multiple of 8 the RFC 5649 value is written.  Missing: other
lengths, which panic (`C31_wrapPad_unaligned_violated`). -/
theorem C31_wrapPad_spec_partial (c : BlockCipher) (h16 : c.bs = 16) (iv : Option Bytes) (x : Bytes)
    (hnew : wrapPadNew c iv = .ok x) (m : Mem) (dst src : Slice) (h8 : 8 ∣ src.len) (h1 : 0 < src.len)
    (h2 : src.len < 2 ^ 31) (h3 : src.len + 8 ≤ dst.len) :
    wrapPadEnc c x m dst src = .ok (m.write dst.ptr (Spec.keyWrapPad c.E (Spec.icvOf iv) (m.read src.ptr src.len))) := by
  obtain ⟨e, hl⟩ := wrapPadNew_take c h16 iv x hnew
  have h8' := Nat.mod_eq_zero_of_dvd h8
  have hlen : (m.read src.ptr src.len).length = src.len := Mem.read_length ..
  have hpl : (src.len + 7) / 8 * 8 = src.len := by omega
  have ha : (x.take 4 ++ Spec.natBe 4 src.len).length = 8 := by rw [List.length_append, e, hl, natBe_len]
  have e' : x.take 4 = Spec.icvOf iv := e
  unfold wrapPadEnc Spec.keyWrapPad
  rw [if_neg (by simpa using h8'), if_neg (by omega)]
  simp only [hlen, hpl, h8', wrapAiv_eq]
  rw [if_neg (by unfold wrapMax; omega), if_neg (by omega), if_neg (by omega)]
  rw [show (8 - 0) % 8 = 0 from rfl, List.replicate_zero, List.append_nil, hlen]
  by_cases hs : src.len = 8
  · rw [if_pos hs, if_pos hs, if_neg (by omega)]
    congr 1
    have hr : Mem.read ((m.write (dst.ptr + 8) (m.read src.ptr src.len)).write dst.ptr
        (x.take 4 ++ Spec.natBe 4 src.len)) dst.ptr c.bs =
        x.take 4 ++ Spec.natBe 4 src.len ++ m.read src.ptr src.len := by
      rw [h16, show (16 : Nat) = 8 + 8 from rfl, Mem.read_append, Mem.read_write_self' _ _ _ _ ha,
        Mem.read_write_disjoint _ _ _ _ _ (Or.inr (by rw [ha]; exact Nat.le_refl _)), Mem.read_write_self' _ _ _ _ (by rw [hlen, hs])]
    unfold BlockCipher.encM
    rw [hr]
    rw [Mem.write_comm _ dst.ptr (dst.ptr + 8) (x.take 4 ++ Spec.natBe 4 src.len) _ (Or.inl (by rw [ha]; exact Nat.le_refl _)), ← ha, ← Mem.write_append,
      Mem.write_write_same _ _ _ _ (by
        rw [c.lenE _ (by rw [List.length_append, ha, hlen, h16, hs]), List.length_append, ha, hlen, h16, hs]), e']
  · rw [if_neg hs, if_neg hs]
    have hw : wrapNew c (some (x.take 4 ++ Spec.natBe 4 src.len)) =
        .ok (copyInto (List.replicate c.bs 0) (x.take 4 ++ Spec.natBe 4 src.len)) := by
      unfold wrapNew
      simp only [Option.getD_some]
      rw [if_neg (by omega)]
    rw [hw, Res.bind_ok, C30_wrap_spec c h16 _ _ hw m dst src h8 (by omega) (by omega) h3]
    unfold Spec.ivOf
    rw [Option.getD_some, List.take_of_length_le (by omega), e']

/-- C31 is violated: no plaintext whose length is not a multiple of 8 can be wrapped. -/
theorem C31_wrapPad_unaligned_violated (c : BlockCipher) (x : Bytes) (m : Mem) (dst src : Slice)
    (h : ¬ 8 ∣ src.len) : wrapPadEnc c x m dst src = .panic := by
  unfold wrapPadEnc
  rw [if_pos (fun h' => h (Nat.dvd_of_mod_eq_zero h'))]

theorem ptextLen_natBe (icv : Bytes) (h : icv.length = 4) (n : Nat) (hn : n < 2 ^ 32) :
    wrapPtextLen (icv ++ Spec.natBe 4 n) = n := by
  have e : Spec.natBe 4 n = [BitVec.ofNat 8 (n / 256 / 256 / 256), BitVec.ofNat 8 (n / 256 / 256),
    BitVec.ofNat 8 (n / 256), BitVec.ofNat 8 n] := rfl
  obtain ⟨a, b, c, d, rfl⟩ : ∃ a b c d, icv = [a, b, c, d] := by
    rcases icv with _ | ⟨a, _ | ⟨b, _ | ⟨c, _ | ⟨d, _ | ⟨f, icv⟩⟩⟩⟩⟩ <;> simp at h
    exact ⟨a, b, c, d, rfl⟩
  rw [e]
  change (BitVec.ofNat 8 (n / 256 / 256 / 256)).toNat * 2 ^ 24 + (BitVec.ofNat 8 (n / 256 / 256)).toNat * 2 ^ 16 +
    (BitVec.ofNat 8 (n / 256)).toNat * 2 ^ 8 + (BitVec.ofNat 8 n).toNat = n
  simp only [BitVec.toNat_ofNat]
  omega

/-- What unpadding does with an RFC 3394 wrapping of `body` under the AIV `icv ‖ ℓ`. -/
theorem wrapPadDec_body (c : BlockCipher) (h16 : c.bs = 16) (iv : Option Bytes) (x : Bytes)
    (hnew : wrapPadNew c iv = .ok x) (ℓ : Nat) (body : Bytes) (hb : body.length % 8 = 0) (h1 : 16 ≤ body.length)
    (h2 : body.length + 8 ≤ 2 ^ 31) (hl1 : body.length < ℓ + 8) (hl2 : ℓ ≤ body.length)
    (m : Mem) (dst src : Slice) (hsl : src.len = body.length + 8) (h3 : body.length ≤ dst.len)
    (hs : m.read src.ptr src.len = Spec.keyWrap c.E (Spec.icvOf iv ++ Spec.natBe 4 ℓ) body) :
    wrapPadDec c x m dst src =
      if dst.len > ℓ ∧ Mem.read (m.write dst.ptr body) (dst.ptr + ℓ) (dst.len - ℓ) = List.replicate (body.length - ℓ) 0
      then .ok (m.write dst.ptr (List.replicate body.length 0)) else .ok (m.write dst.ptr body) := by
  obtain ⟨e, hl⟩ := wrapPadNew_take c h16 iv x hnew
  have e' : x.take 4 = Spec.icvOf iv := e
  have hicv : (Spec.icvOf iv).length = 4 := hl
  have ha : (Spec.icvOf iv ++ Spec.natBe 4 ℓ).length = 8 := by rw [List.length_append, hicv, natBe_len]
  have hinv := kwInv_of_wrapped c h16 _ body ha hb m src hsl hs
  have hd := wrapDecBlocks_eq c h16 m dst src (by omega) (by omega) (by omega)
  rw [hinv] at hd
  simp only [← read_eq_flatten_chunks] at hd
  unfold wrapPadDec
  rw [if_neg (by omega), if_neg (by omega), if_neg (by omega), if_neg (by unfold wrapMax; omega), if_neg (by omega),
    if_neg (by omega), if_neg (by omega), hd]
  simp only
  unfold wrapPadCheck
  simp only
  rw [ptextLen_natBe _ hicv _ (by omega), List.take_left' hicv, e', if_neg (by simp), if_neg (by omega)]
  have hsub : src.len - 8 = body.length := by omega
  rw [hsub, if_neg (show ¬ body.length < ℓ by omega), Mem.write_write_same _ _ _ _ (by simp)]
  by_cases hq : dst.len > ℓ
  · simp only [hq, if_true, true_and]
  · simp only [hq, if_false, false_and]

/-- C31 (partial): the value wrapped from a plaintext of 8k bytes, k ≥ 2, unwraps to it.  Missing: other lengths,
which are answered with zeros (`C31_unwrapPad_padded_zeroed_violated`). -/
theorem C31_roundtrip_partial (c : BlockCipher) (h16 : c.bs = 16) (iv : Option Bytes) (x : Bytes)
    (hnew : wrapPadNew c iv = .ok x) (p : Bytes) (hp : 8 ∣ p.length) (h1 : 16 ≤ p.length)
    (h2 : p.length + 8 ≤ 2 ^ 31) (m : Mem) (dst src : Slice) (hsl : src.len = p.length + 8) (h3 : p.length ≤ dst.len)
    (hs : m.read src.ptr src.len = Spec.keyWrapPad c.E (Spec.icvOf iv) p) :
    wrapPadDec c x m dst src = .ok (m.write dst.ptr p) := by
  have hp' := Nat.mod_eq_zero_of_dvd hp
  unfold Spec.keyWrapPad at hs
  simp only [hp'] at hs
  rw [show (8 - 0) % 8 = 0 from rfl, List.replicate_zero, List.append_nil, if_neg (by omega)] at hs
  rw [wrapPadDec_body c h16 iv x hnew p.length p hp' h1 h2 (by omega) (by omega) m dst src hsl h3 hs, if_neg]
  rintro ⟨a, b⟩
  have := congrArg List.length b
  simp at this
  omega

/-- C31 (partial): the 8-byte case, when dst has exactly 8 bytes. -/
theorem C31_roundtrip8_partial (c : BlockCipher) (h16 : c.bs = 16) (iv : Option Bytes) (x : Bytes)
    (hnew : wrapPadNew c iv = .ok x) (p : Bytes) (hp : p.length = 8) (m : Mem) (dst src : Slice) (hsl : src.len = 16)
    (h3 : 8 ≤ dst.len) (hs : m.read src.ptr src.len = Spec.keyWrapPad c.E (Spec.icvOf iv) p) :
    wrapPadDec c x m dst src = if dst.len = 8 then .ok (m.write dst.ptr p) else .panic := by
  obtain ⟨e, hl⟩ := wrapPadNew_take c h16 iv x hnew
  have e' : x.take 4 = Spec.icvOf iv := e
  have hicv : (Spec.icvOf iv).length = 4 := hl
  have ha : (Spec.icvOf iv ++ Spec.natBe 4 8).length = 8 := by rw [List.length_append, hicv, natBe_len]
  unfold Spec.keyWrapPad at hs
  simp only [hp] at hs
  rw [show (8 - 8 % 8) % 8 = 0 from rfl, List.replicate_zero, List.append_nil, if_pos hp] at hs
  unfold wrapPadDec
  rw [if_neg (by omega), if_neg (by omega), if_neg (by omega), if_neg (by unfold wrapMax; omega), if_neg (by omega),
    if_neg (by omega), if_pos hsl]
  rw [hsl] at hs
  rw [h16, hs, c.DE _ (by rw [List.length_append, ha, hp, h16])]
  simp only [Nat.sub_self, List.replicate_zero, List.append_nil]
  rw [List.take_left' ha, List.drop_left' ha, List.take_of_length_le (by omega)]
  unfold wrapPadCheck
  simp only
  rw [ptextLen_natBe _ hicv _ (by omega), List.take_left' hicv, e', if_neg (by simp), if_neg (by omega)]
  by_cases hq : dst.len = 8
  · rw [if_neg (by omega), if_pos hq]
  · rw [if_pos (by omega), if_pos (by omega), if_neg hq]

/-- C31 is violated: for **every** key and every plaintext longer than 8 bytes whose length is not a multiple of
8, unwrapping its correct RFC 5649 value into a buffer of the required size delivers zeros: the padding check
is inverted. -/
theorem C31_unwrapPad_padded_zeroed_violated (c : BlockCipher) (h16 : c.bs = 16) (iv : Option Bytes) (x : Bytes)
    (hnew : wrapPadNew c iv = .ok x) (p : Bytes) (hp : ¬ 8 ∣ p.length) (h1 : 8 < p.length) (h2 : p.length + 15 < 2 ^ 31)
    (m : Mem) (dst src : Slice) (hsl : src.len = (p.length + 7) / 8 * 8 + 8) (h3 : dst.len = src.len - 8)
    (hs : m.read src.ptr src.len = Spec.keyWrapPad c.E (Spec.icvOf iv) p) :
    wrapPadDec c x m dst src = .ok (m.write dst.ptr (List.replicate dst.len 0)) := by
  have hp' : p.length % 8 ≠ 0 := fun h => hp (Nat.dvd_of_mod_eq_zero h)
  have hbl : (p ++ List.replicate ((8 - p.length % 8) % 8) (0 : Byte)).length = dst.len := by
    rw [List.length_append, List.length_replicate]; omega
  unfold Spec.keyWrapPad at hs
  simp only at hs
  rw [if_neg (by rw [hbl]; omega)] at hs
  rw [wrapPadDec_body c h16 iv x hnew p.length _ (by rw [hbl]; omega) (by rw [hbl]; omega) (by rw [hbl]; omega)
    (by rw [hbl]; omega) (by rw [hbl]; omega) m dst src (by rw [hbl]; omega) (by omega) hs, hbl, if_pos]
  refine ⟨by omega, ?_⟩
  rw [Mem.write_append, Mem.read_write_self' _ _ _ _ (by rw [List.length_replicate]; omega)]
  congr 1
  omega

/-- C31 is violated: a value whose padding bytes are **not** zero is accepted and delivered. -/
theorem C31_unwrapPad_bad_padding_accepted_violated (c : BlockCipher) (h16 : c.bs = 16) (iv : Option Bytes) (x : Bytes)
    (hnew : wrapPadNew c iv = .ok x) (p pad : Bytes) (h8 : 8 ∣ (p ++ pad).length) (hpad : pad.length < 8)
    (hbad : ∃ b ∈ pad, b ≠ 0) (h1 : 8 < p.length) (h2 : p.length + 15 < 2 ^ 31) (m : Mem) (dst src : Slice)
    (hsl : src.len = (p ++ pad).length + 8) (h3 : (p ++ pad).length ≤ dst.len)
    (hs : m.read src.ptr src.len = Spec.keyWrap c.E (Spec.icvOf iv ++ Spec.natBe 4 p.length) (p ++ pad)) :
    wrapPadDec c x m dst src = .ok (m.write dst.ptr (p ++ pad)) := by
  have h8' := Nat.mod_eq_zero_of_dvd h8
  have hl := List.length_append (as := p) (bs := pad)
  obtain ⟨b, hb, hb0⟩ := hbad
  rw [wrapPadDec_body c h16 iv x hnew p.length _ h8' (by omega) (by omega) (by omega) (by omega) m dst src hsl h3 hs,
    if_neg]
  rintro ⟨ha, hc⟩
  have hpl : 0 < pad.length := List.length_pos_of_mem hb
  rw [Mem.write_append, show dst.len - p.length = pad.length + (dst.len - p.length - pad.length) by omega,
    Mem.read_append, Mem.read_write_self' _ _ _ _ rfl] at hc
  have : b ∈ List.replicate ((p ++ pad).length - p.length) (0 : Byte) := by
    rw [← hc]; exact List.mem_append_left _ hb
  exact hb0 (List.eq_of_mem_replicate this)

/-! Concrete instances: the hypotheses are met. -/

example : ∃ x, wrapNew (toyCipher 16 (by decide)) none = .ok x ∧
    wrapEnc (toyCipher 16 (by decide)) x (fun a => BitVec.ofNat 8 a) ⟨100, 32, 32⟩ ⟨0, 24, 24⟩ ≠ .panic := by
  refine ⟨_, rfl, ?_⟩
  rw [C30_wrap_spec (toyCipher 16 (by decide)) rfl none _ rfl _ _ _ ⟨3, rfl⟩ (by decide) (by decide) (by decide)]
  simp

/-- Both outcomes of unwrapping occur: the wrapped value unwraps, and the same value with its first byte changed
is answered with zeros. -/
example : let c := toyCipher 16 (by decide)
    let p : Bytes := (List.range 16).map (BitVec.ofNat 8)
    let w := Spec.keyWrap c.E (Spec.ivOf none) p
    let m := Mem.write (fun _ => 0) 100 w
    let m' := Mem.write (fun _ => 0) 100 (w.set 0 (w.getD 0 0 + 1))
    (∃ x, wrapNew c none = .ok x ∧ wrapDec c x m ⟨200, 16, 16⟩ ⟨100, 24, 24⟩ = .ok (m.write 200 p)) ∧
    (Spec.kwInv c.D (m'.read 100 8) (chunks 8 (m'.read 108 16))).1 ≠ Spec.ivOf none := by
  refine ⟨⟨_, rfl, ?_⟩, by decide +kernel⟩
  apply C30_roundtrip (toyCipher 16 (by decide)) rfl none _ rfl <;> decide +kernel

example : ∃ x, wrapNew (toyCipher 8 (by decide)) (some (List.replicate 8 3)) = .ok x := ⟨_, rfl⟩

/-- A wrapped-and-padded value of 16 bytes and one of 13 bytes, in memory. -/
example : let c := toyCipher 16 (by decide)
    let p : Bytes := (List.range 16).map (BitVec.ofNat 8)
    let m := Mem.write (fun _ => 0) 100 (Spec.keyWrapPad c.E (Spec.icvOf none) p)
    let m13 := Mem.write (fun _ => 7) 100 (Spec.keyWrapPad c.E (Spec.icvOf none) (p.take 13))
    ∃ x, wrapPadNew c none = .ok x ∧ wrapPadDec c x m ⟨200, 16, 16⟩ ⟨100, 24, 24⟩ = .ok (m.write 200 p) ∧
      wrapPadDec c x m13 ⟨200, 16, 16⟩ ⟨100, 24, 24⟩ = .ok (m13.write 200 (List.replicate 16 0)) := by
  refine ⟨_, rfl, ?_, ?_⟩
  · apply C31_roundtrip_partial (toyCipher 16 (by decide)) rfl none _ rfl <;> decide +kernel
  · apply C31_unwrapPad_padded_zeroed_violated (toyCipher 16 (by decide)) rfl none _ rfl
      (((List.range 16).map (BitVec.ofNat 8)).take 13) <;> decide +kernel

/-- The 8-byte case and a value with non-zero padding. -/
example : let c := toyCipher 16 (by decide)
    let m := Mem.write (fun _ => 0) 100 (Spec.keyWrapPad c.E (Spec.icvOf none) (List.replicate 8 5))
    let mb := Mem.write (fun _ => 0) 100
      (Spec.keyWrap c.E (Spec.icvOf none ++ Spec.natBe 4 13) (List.replicate 13 5 ++ [1, 2, 3]))
    ∃ x, wrapPadNew c none = .ok x ∧
      wrapPadDec c x m ⟨200, 8, 8⟩ ⟨100, 16, 16⟩ = .ok (m.write 200 (List.replicate 8 5)) ∧
      wrapPadDec c x mb ⟨200, 16, 16⟩ ⟨100, 24, 24⟩ = .ok (mb.write 200 (List.replicate 13 5 ++ [1, 2, 3])) := by
  refine ⟨_, rfl, ?_, ?_⟩
  · exact C31_roundtrip8_partial (toyCipher 16 (by decide)) rfl none _ rfl (List.replicate 8 5) rfl _ ⟨200, 8, 8⟩
      ⟨100, 16, 16⟩ rfl (by decide) (by decide +kernel)
  · apply C31_unwrapPad_bad_padding_accepted_violated (toyCipher 16 (by decide)) rfl none _ rfl (List.replicate 13 5)
      [1, 2, 3] <;> decide +kernel

end Verif.Mode
