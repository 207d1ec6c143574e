import Verif.Mode.StreamHelp2
import Verif.Mode.OfbLemmas2
import Verif.Mode.StreamProps2
/-
C26–C28 and C29 (rest): the GOST streams.  See StreamProps.lean for the reading guide.
-/
namespace Verif.Mode

/-! ### C26 GOST CFB with key meshing -/

section
variable (newKey : Bytes → Option BlockCipher)

/-- C26, exact behaviour: sections of 1024 bytes, each in CFB mode; after each section the key is replaced by
the *encryption* of the meshing constant, and the IV by the encryption (under the new key) of the IV the
section *started* with. -/
theorem C26_gcfb_encrypt_exact (hk : Key32 newKey) (key iv : Bytes) (hkey : key.length = 32) (x : Gcfb)
    (hnew : gcfbNew newKey key iv = .ok x) (m : Mem) (dst src : Slice) (h8 : 8 ∣ src.len)
    (h2 : src.len ≤ dst.len) (h3 : NoPartialOverlap dst src) :
    ∃ x', gcfbXor newKey 8 false x m dst src = .ok (m.write dst.ptr (Spec.meshCfb (underE newKey) 8
      (fun k => ((chunks 8 gcfbC).map (underE newKey k)).flatten) (fun k' iv _ => underE newKey k' iv) key iv
      (chunks 1024 (m.read src.ptr src.len))).flatten, x') := by
  obtain ⟨hI, hc, hfb, hiv, hke⟩ := gcfbNew_I newKey hk key iv x hkey hnew
  have hs := gcfb_sections newKey hk (m.read src.ptr src.len) (by rw [Mem.read_length]; exact h8) x hI 0
    (by simpa using hc) (fun _ => by rw [hfb, hiv])
  rw [if_pos rfl, if_pos rfl, hiv, hke] at hs
  rcases sameOrDisjoint_of_check dst src h3 with h0 | hC
  · refine ⟨x, ?_⟩
    unfold gcfbXor xorKeyStream
    unfold NoPartialOverlap at h3
    rw [if_neg (by omega), h3, h0]
    simp [segLoop_zero, Mem.read, Spec.meshCfb, Mem.write_nil]
  · obtain ⟨x', e, _⟩ := (gcfb_okG newKey hk false).call m dst src ⟨rfl, hI⟩ h2 h3 hC h8
    refine ⟨x', ?_⟩
    rw [gcfbXor, e, hs]
    rfl

/-- C26 (partial): up to one section (1024 bytes) this is the RFC 4357 ciphertext.  Missing: longer messages,
where the code differs from RFC 4357 (`C26_gcfb_violated`). -/
theorem C26_gcfb_encrypt_spec_partial (hk : Key32 newKey) (key iv : Bytes) (hkey : key.length = 32) (x : Gcfb)
    (hnew : gcfbNew newKey key iv = .ok x) (m : Mem) (dst src : Slice) (h8 : 8 ∣ src.len)
    (h2 : src.len ≤ dst.len) (h3 : NoPartialOverlap dst src) (hshort : src.len ≤ 1024) :
    ∃ x', gcfbXor newKey 8 false x m dst src = .ok (m.write dst.ptr
      (Spec.rfc4357Cfb (underE newKey) (underD newKey) gcfbC key iv (m.read src.ptr src.len)), x') := by
  obtain ⟨x', e⟩ := C26_gcfb_encrypt_exact newKey hk key iv hkey x hnew m dst src h8 h2 h3
  refine ⟨x', ?_⟩
  rw [e]
  unfold Spec.rfc4357Cfb
  have hl : (m.read src.ptr src.len).length = src.len := Mem.read_length ..
  generalize m.read src.ptr src.len = z at hl ⊢
  by_cases hz : z = []
  · subst hz; rfl
  · rw [chunks_cons 1024 (by decide) z hz, List.drop_of_length_le (by omega)]
    rfl

/-- C26: a source whose length is not a multiple of the block panics, in every reachable state; so do a short
destination and a partial overlap; every other call returns. -/
theorem C26_gcfb_panics_iff (hk : Key32 newKey) (key iv : Bytes) (hkey : key.length = 32) (x : Gcfb)
    (hnew : gcfbNew newKey key iv = .ok x) (dec : Bool) {A : Slice → Slice → Prop} {ins outs : List Bytes}
    {x1 : Gcfb} (he : Calls A (gcfbXor newKey 8 dec) x ins outs x1) (m : Mem) (dst src : Slice) :
    (gcfbXor newKey 8 dec x1 m dst src = .panic ↔
      (dst.len < src.len ∨ ¬ NoPartialOverlap dst src ∨ ¬ 8 ∣ src.len)) ∧
    gcfbXor newKey 8 dec x1 m dst src ≠ .hang ∧ gcfbXor newKey 8 dec x1 m dst src ≠ .err := by
  obtain ⟨hI, _⟩ := gcfbNew_I newKey hk key iv x hkey hnew
  have hR := ((gcfb_okG newKey hk dec).calls (fun t a b h => blkRun_append 8 (by decide) _ t a b h)
    (fun d s h _ => sameOrDisjoint_of_check d s h) (t := x) ⟨rfl, hI⟩ he (gcfb_calls_dvd he)).2
  obtain ⟨rfl, hI1⟩ := hR
  generalize (blkRun 8 (gcfbF newKey dec) x ins.flatten).2 = x1 at hI1 he ⊢
  by_cases h2 : dst.len < src.len
  · have : gcfbXor newKey 8 dec x1 m dst src = .panic := by
      unfold gcfbXor xorKeyStream; rw [if_pos h2]
    simp [this, h2]
  by_cases h3 : NoPartialOverlap dst src
  · by_cases h8 : 8 ∣ src.len
    · rcases sameOrDisjoint_of_check dst src h3 with h0 | hC
      · have : gcfbXor newKey 8 dec x1 m dst src = .ok (m, x1) := by
          unfold gcfbXor xorKeyStream
          have h3' := h3
          unfold NoPartialOverlap at h3'
          rw [if_neg h2, h3', h0]
          simp [segLoop_zero]
        simp [this, h2, h3, h8]
      · obtain ⟨x', e, _⟩ := (gcfb_okG newKey hk dec).call m dst src ⟨rfl, hI1⟩ (by omega) h3 hC h8
        rw [gcfbXor, e]
        simp [h2, h3, h8]
    · have : gcfbXor newKey 8 dec x1 m dst src = .panic := by
        unfold gcfbXor xorKeyStream
        unfold NoPartialOverlap at h3
        rw [if_neg h2, h3]
        simp only [Bool.false_eq_true, if_false]
        exact gcfb_panic newKey hk dec _ _ x1 hI1 m _ _ _ (Nat.le_refl _) h8
      simp [this, h8]
  · have : gcfbXor newKey 8 dec x1 m dst src = .panic := by
      unfold gcfbXor xorKeyStream
      unfold NoPartialOverlap at h3
      rw [if_neg h2, if_pos (by simpa using h3)]
    simp [this, h3]

/-- C26: decrypting with the same key and IV restores the plaintext, over any two call histories. -/
theorem C26_gcfb_roundtrip (hk : Key32 newKey) (key iv : Bytes) (hkey : key.length = 32) (x : Gcfb)
    (hnew : gcfbNew newKey key iv = .ok x) {A B : Slice → Slice → Prop} {ins outs ins' outs' : List Bytes}
    {x1 x2 : Gcfb} (he : Calls A (gcfbXor newKey 8 false) x ins outs x1)
    (hd : Calls B (gcfbXor newKey 8 true) x ins' outs' x2) (h : ins'.flatten = outs.flatten) :
    outs'.flatten = ins.flatten := by
  obtain ⟨hI, _⟩ := gcfbNew_I newKey hk key iv x hkey hnew
  have h1 := ((gcfb_okG newKey hk false).calls (fun t a b h => blkRun_append 8 (by decide) _ t a b h)
    (fun d s h _ => sameOrDisjoint_of_check d s h) (t := x) ⟨rfl, hI⟩ he (gcfb_calls_dvd he)).1
  have h2 := ((gcfb_okG newKey hk true).calls (fun t a b h => blkRun_append 8 (by decide) _ t a b h)
    (fun d s h _ => sameOrDisjoint_of_check d s h) (t := x) ⟨rfl, hI⟩ hd (gcfb_calls_dvd hd)).1
  rw [h2, h, h1]
  refine gcfb_roundtrip newKey hk _ ?_ x hI
  have := gcfb_calls_dvd he
  clear h1 h2 he hd h
  induction ins with
  | nil => exact Nat.dvd_zero _
  | cons a l ih =>
    simp only [List.flatten_cons, List.length_append]
    exact Nat.dvd_add (this a (by simp)) (ih (fun i hi => this i (by simp [hi])))

/-- C29 for GCFB (the calls that return are those on whole blocks). -/
theorem C29_gcfb_pieces (hk : Key32 newKey) (key iv : Bytes) (hkey : key.length = 32) (x : Gcfb)
    (hnew : gcfbNew newKey key iv = .ok x) (dec : Bool) {A B : Slice → Slice → Prop}
    {ins outs ins' outs' : List Bytes} {x1 x2 : Gcfb} (h1 : Calls A (gcfbXor newKey 8 dec) x ins outs x1)
    (h2 : Calls B (gcfbXor newKey 8 dec) x ins' outs' x2) (h : ins.flatten = ins'.flatten) :
    outs.flatten = outs'.flatten := by
  obtain ⟨hI, _⟩ := gcfbNew_I newKey hk key iv x hkey hnew
  have e1 := ((gcfb_okG newKey hk dec).calls (fun t a b h => blkRun_append 8 (by decide) _ t a b h)
    (fun d s h _ => sameOrDisjoint_of_check d s h) (t := x) ⟨rfl, hI⟩ h1 (gcfb_calls_dvd h1)).1
  have e2 := ((gcfb_okG newKey hk dec).calls (fun t a b h => blkRun_append 8 (by decide) _ t a b h)
    (fun d s h _ => sameOrDisjoint_of_check d s h) (t := x) ⟨rfl, hI⟩ h2 (gcfb_calls_dvd h2)).1
  rw [e1, e2, h]

end

/-- A key schedule for 32-byte keys: reverse, add one, XOR the first 8 key bytes (block of 8 bytes). -/
def toyGost (k : Bytes) : Option BlockCipher :=
  if h : k.length = 32 then some
    { bs := 8
      E := fun b => xorb ((b.map (· + 1)).reverse) (k.take 8)
      D := fun b => ((xorb b (k.take 8)).reverse).map (· - 1)
      bs_pos := by decide
      lenE := by intro b hb; simp [hb, h]
      lenD := by intro b hb; simp [hb, h]
      DE := by
        intro b hb
        have : ((fun x : Byte => x - 1) ∘ fun x : Byte => x + 1) = id := by
          funext x; exact BitVec.add_sub_cancel x 1
        rw [xorb_xorb_cancel_right _ _ (by simp [hb, h])]
        simp only [List.reverse_reverse, List.map_map, this, List.map_id] }
  else none

theorem toyGost_key32 : Key32 toyGost := by
  intro k h
  unfold toyGost
  rw [dif_pos h]
  exact ⟨_, rfl, rfl⟩

/-- Hypotheses are met: a fresh object, an encrypting history and a decrypting history. -/
example : ∃ x outs x1, gcfbNew toyGost (List.replicate 32 5) (List.replicate 8 1) = .ok x ∧
    Calls NoOverlap (gcfbXor toyGost 8 false) x [List.replicate 8 0, List.replicate 16 9] outs x1 := by
  obtain ⟨outs, x1, h⟩ := (gcfb_okG toyGost toyGost_key32 false).calls_exist
    (fun n => by unfold SameOrDisjoint; omega) [List.replicate 8 0, List.replicate 16 9]
    (by intro i hi; simp only [List.mem_cons, List.not_mem_nil, or_false] at hi; rcases hi with rfl | rfl <;> decide)
    _ _ ⟨rfl, (gcfbNew_I toyGost toyGost_key32 (List.replicate 32 5) (List.replicate 8 1) _ (by decide) rfl).1⟩
  exact ⟨_, outs, x1, rfl, h⟩

/-- C26 fails beyond 1024 bytes: 1032 zero bytes give a ciphertext that is not the RFC 4357 one. -/
theorem C26_gcfb_violated : ∃ x, gcfbNew toyGost (List.replicate 32 5) (List.replicate 8 1) = .ok x ∧
    ∃ m' x', gcfbXor toyGost 8 false x (fun _ => 0) ⟨2000, 1032, 1032⟩ ⟨0, 1032, 1032⟩ = .ok (m', x') ∧
      m'.read 2000 1032 ≠ Spec.rfc4357Cfb (underE toyGost) (underD toyGost) gcfbC (List.replicate 32 5)
        (List.replicate 8 1) (Mem.read (fun _ => 0) 0 1032) := by
  obtain ⟨x', e⟩ := C26_gcfb_encrypt_exact toyGost toyGost_key32 (List.replicate 32 5) (List.replicate 8 1)
    (by decide) _ rfl (fun _ => 0) ⟨2000, 1032, 1032⟩ ⟨0, 1032, 1032⟩ ⟨129, rfl⟩ (by decide) (by decide)
  refine ⟨_, rfl, _, _, e, ?_⟩
  intro h
  have h2 : ((Spec.meshCfb (underE toyGost) 8 (fun k => ((chunks 8 gcfbC).map (underE toyGost k)).flatten)
      (fun k' iv _ => underE toyGost k' iv) (List.replicate 32 5) (List.replicate 8 1)
      (chunks 1024 (Mem.read (fun _ => 0) 0 1032))).flatten).length = 1032 := by decide +kernel
  rw [Mem.read_write_self' _ _ _ _ h2] at h
  revert h
  decide +kernel

/-! ### C27 GOST 28147 counter mode (GOFB) -/

section
variable (c : BlockCipher)

/-- C27 (partial): one call on a fresh object XORs with the GOST 28147-89 counter-mode stream, as long as the
register `N4` never reaches the one value where the code's end-around carry is wrong (`C27_gofb_violated`). -/
theorem C27_gofb_spec_partial (h8 : c.bs = 8) (iv : Bytes) (x : KsBuf GofbReg) (hnew : gofbNew c iv = .ok x)
    (m : Mem) (dst src : Slice) (h2 : src.len ≤ dst.len) (h3 : NoPartialOverlap dst src)
    (hgood : ∀ i, 8 * i < src.len →
      Spec.gostN4 (getLe32 ((c.E iv).drop 4)).toNat i + 0x01010104 ≠ 2 ^ 32) :
    ∃ x', gofbXor c x m dst src = .ok (m.write dst.ptr (xorb (m.read src.ptr src.len)
      (Spec.keyBytes (Spec.streamOf 8 (Spec.gostBlock c.E (c.E iv))) 0 src.len)), x') := by
  obtain ⟨rfl, hl⟩ := gofbNew_ok c hnew
  obtain ⟨x', e, _⟩ := gofb_call c (by omega) (by omega) ⟨⟨iv, 0, 0⟩, [], 0⟩ ⟨hl, Nat.le_refl _⟩ m dst src h2 h3
  exact ⟨x', by rw [e, gofb_fresh_ks c h8 iv hl _ hgood]; rfl⟩

/-- C27: decrypting the pieces as they were encrypted restores the plaintext, for every history. -/
theorem C27_gofb_roundtrip (h8 : 8 ≤ c.bs) (hbs : c.bs < 512) (iv : Bytes) (x : KsBuf GofbReg)
    (hnew : gofbNew c iv = .ok x) {A B : Slice → Slice → Prop} {ins outs outs' : List Bytes}
    {x1 x2 : KsBuf GofbReg} (he : Calls A (gofbXor c) x ins outs x1) (hd : Calls B (gofbXor c) x outs outs' x2) :
    outs' = ins := by
  obtain ⟨rfl, hl⟩ := gofbNew_ok c hnew
  exact gofb_same_roundtrip c h8 hbs ⟨hl, Nat.le_refl _⟩ he hd

/-- C27: exactly which calls panic, on a fresh object; none hangs. -/
theorem C27_gofb_panics_iff (h8 : 8 ≤ c.bs) (hbs : c.bs < 512) (iv : Bytes) (x : KsBuf GofbReg)
    (hnew : gofbNew c iv = .ok x) {A : Slice → Slice → Prop} {ins outs : List Bytes} {x1 : KsBuf GofbReg}
    (he : Calls A (gofbXor c) x ins outs x1) (m : Mem) (dst src : Slice) :
    (gofbXor c x1 m dst src = .panic ↔ (dst.len < src.len ∨ ¬ NoPartialOverlap dst src)) ∧
    gofbXor c x1 m dst src ≠ .hang ∧ gofbXor c x1 m dst src ≠ .err := by
  obtain ⟨rfl, hl⟩ := gofbNew_ok c hnew
  have hI : GofbI c x1 := by
    have h0 : GofbI c ⟨⟨iv, 0, 0⟩, [], 0⟩ := ⟨hl, Nat.le_refl _⟩
    generalize (⟨⟨iv, 0, 0⟩, [], 0⟩ : KsBuf GofbReg) = x0 at he h0
    induction he with
    | nil st => exact h0
    | cons ha hok _ ih => exact ih (gofb_call_ok c h8 hbs _ _ h0 _ _ _ _ hok).2
  by_cases h2 : dst.len < src.len
  · have : gofbXor c x1 m dst src = .panic := by
      unfold gofbXor xorKeyStream; rw [if_neg (by omega), if_pos h2]
    simp [this, h2]
  by_cases h3 : NoPartialOverlap dst src
  · obtain ⟨x', e, _⟩ := gofb_call c h8 hbs x1 hI m dst src (by omega) h3
    rw [e]
    simp [h2, h3]
  · have : gofbXor c x1 m dst src = .panic := by
      unfold gofbXor xorKeyStream
      unfold NoPartialOverlap at h3
      rw [if_neg (by omega), if_neg h2, if_pos (by simpa using h3)]
    simp [this, h3]

end

/-- The 8-byte cipher "XOR with `00 00 00 00 FC FE FE FE`". -/
def toyFE : BlockCipher := xorCipher [0, 0, 0, 0, 0xFC, 0xFE, 0xFE, 0xFE] (by decide)

/-- The hypotheses of `C27_gofb_spec_partial` are met by 24 bytes under the cipher "XOR with 1…8". -/
example : let c := xorCipher [1, 2, 3, 4, 5, 6, 7, 8] (by decide)
    ∃ x, gofbNew c (List.replicate 8 0) = .ok x ∧ c.bs = 8 ∧
    ∀ i, 8 * i < 24 → Spec.gostN4 (getLe32 ((c.E (List.replicate 8 0)).drop 4)).toNat i + 0x01010104 ≠ 2 ^ 32 := by
  refine ⟨_, rfl, rfl, ?_⟩
  intro i hi
  have : i = 0 ∨ i = 1 ∨ i = 2 := by omega
  rcases this with rfl | rfl | rfl <;> decide +kernel

/-- C27 fails when `N4` reaches `0xFEFEFEFC`: the sum is then `2^32`, which is `1` modulo `2^32 - 1`; the code
leaves it at `0`. -/
theorem C27_gofb_violated : ∃ x, gofbNew toyFE (List.replicate 8 0) = .ok x ∧
    ∃ m' x', gofbXor toyFE x (fun _ => 0) ⟨100, 8, 8⟩ ⟨0, 8, 8⟩ = .ok (m', x') ∧
      m'.read 100 8 ≠ xorb (Mem.read (fun _ => 0) 0 8)
        (Spec.keyBytes (Spec.streamOf 8 (Spec.gostBlock toyFE.E (toyFE.E (List.replicate 8 0)))) 0 8) := by
  obtain ⟨x', e, _⟩ := gofb_call toyFE (by decide) (by decide) ⟨⟨List.replicate 8 0, 0, 0⟩, [], 0⟩
    ⟨rfl, Nat.le_refl _⟩ (fun _ => 0) ⟨100, 8, 8⟩ ⟨0, 8, 8⟩ (by decide) (by decide)
  refine ⟨_, rfl, _, _, e, ?_⟩
  decide +kernel

/-- Two calls in a row and the bytes they wrote. -/
def callTwice {σ : Type} (call : σ → Mem → Slice → Slice → Res (Mem × σ)) (x : σ) (m : Mem) (d1 s1 d2 s2 : Slice)
    (p n : Nat) : Option Bytes :=
  match call x m d1 s1 with
  | .ok (m1, x1) => match call x1 m1 d2 s2 with
    | .ok (m2, _) => some (m2.read p n)
    | _ => none
  | _ => none

theorem callTwice_some {σ : Type} {call : σ → Mem → Slice → Slice → Res (Mem × σ)} {x : σ} {m : Mem}
    {d1 s1 d2 s2 : Slice} {p n : Nat} {b : Bytes} (h : callTwice call x m d1 s1 d2 s2 p n = some b) :
    ∃ m1 x1 m2 x2, call x m d1 s1 = .ok (m1, x1) ∧ call x1 m1 d2 s2 = .ok (m2, x2) ∧ m2.read p n = b := by
  unfold callTwice at h
  split at h
  · rename_i m1 x1 e1
    split at h
    · rename_i m2 x2 e2
      exact ⟨m1, x1, m2, x2, e1, e2, Option.some.inj h⟩
    · cases h
  · cases h

/-- C29 fails for GOFB: 500 bytes and then 8 bytes give another key stream than 508 bytes at once (all
plaintext bytes zero), because every call restarts the counters. -/
theorem C29_gofb_violated : ∃ x, gofbNew (toyCipher 8 (by decide)) (List.replicate 8 0) = .ok x ∧
    (∃ m1 x1 m2 x2, gofbXor (toyCipher 8 (by decide)) x (fun _ => 0) ⟨1000, 500, 500⟩ ⟨0, 500, 500⟩ = .ok (m1, x1) ∧
      gofbXor (toyCipher 8 (by decide)) x1 m1 ⟨1500, 8, 8⟩ ⟨500, 8, 8⟩ = .ok (m2, x2) ∧
      ∃ m3 x3, gofbXor (toyCipher 8 (by decide)) x (fun _ => 0) ⟨1000, 508, 508⟩ ⟨0, 508, 508⟩ = .ok (m3, x3) ∧
        m2.read 1500 8 ≠ m3.read 1500 8) := by
  obtain ⟨x3, e3, _⟩ := gofb_call (toyCipher 8 (by decide)) (by decide) (by decide) ⟨⟨List.replicate 8 0, 0, 0⟩, [], 0⟩
    ⟨rfl, Nat.le_refl _⟩ (fun _ => 0) ⟨1000, 508, 508⟩ ⟨0, 508, 508⟩ (by decide) (by decide)
  have hb : ∃ b, callTwice (gofbXor (toyCipher 8 (by decide))) ⟨⟨List.replicate 8 0, 0, 0⟩, [], 0⟩ (fun _ => 0) ⟨1000, 500, 500⟩
      ⟨0, 500, 500⟩ ⟨1500, 8, 8⟩ ⟨500, 8, 8⟩ 1500 8 = some b ∧ b = [0x41, 0x41, 0x41, 0x41, 0x44, 0x44, 0x45, 0x04] := by
    refine ⟨_, ?_, rfl⟩
    decide +kernel
  obtain ⟨b, hb1, hb2⟩ := hb
  obtain ⟨m1, x1, m2, x2, e1, e2, er⟩ := callTwice_some hb1
  refine ⟨_, rfl, m1, x1, m2, x2, e1, e2, _, _, e3, ?_⟩
  rw [er, hb2]
  decide +kernel

/-! ### C28 GOST R 34.13 CFB -/

section
variable (c : BlockCipher)

theorem g3413cfbNew_ok {iv : Bytes} {bits : Int} {x : Cfb} {sg : Nat} (h : g3413cfbNew c iv bits = .ok (x, sg)) :
    x.used = sg ∧ x.next = iv ∧ iv.length = 2 * c.bs ∧ x.out.length = c.bs ∧ sg ≤ c.bs ∧ sg = bits.toNat / 8 ∧
      G3413R c sg x iv := by
  unfold g3413cfbNew at h
  split at h
  · cases h
  · rename_i hl
    split at h
    · cases h
    · rename_i hb
      have hl' : iv.length = 2 * c.bs := by simpa using hl
      obtain ⟨rfl, rfl⟩ := Prod.mk.inj (Res.ok.inj h)
      have hn : copyInto (List.replicate (2 * c.bs) 0) iv = iv := by
        rw [copyInto_len_le _ _ (by simp [hl'])]
        simp [hl']
      refine ⟨rfl, hn, hl', by simp, ?_, rfl, rfl, hn, hl', by simp⟩
      omega

/-- C28 CFB: one call of any length on a fresh object writes the GOST R 34.13-2015 CFB ciphertext (segments of
`sg` bytes, two-block register), in place or not. -/
theorem C28_g3413cfb_encrypt_spec (iv : Bytes) (bits : Int) (x : Cfb) (sg : Nat)
    (hnew : g3413cfbNew c iv bits = .ok (x, sg)) (hsg : 0 < sg) (m : Mem) (dst src : Slice)
    (h2 : src.len ≤ dst.len) (h3 : NoPartialOverlap dst src) :
    ∃ x', g3413cfbXor c sg false x m dst src = .ok (m.write dst.ptr
      (Spec.g3413cfb c.bs c.E iv (chunks sg (m.read src.ptr src.len))).flatten, x') := by
  obtain ⟨_, _, _, _, hle, _, hR⟩ := g3413cfbNew_ok c hnew
  rcases sameOrDisjoint_of_check dst src h3 with h0 | hC
  · refine ⟨x, ?_⟩
    unfold g3413cfbXor xorKeyStream
    unfold NoPartialOverlap at h3
    rw [if_neg (by omega), h3, h0]
    simp [segLoop_zero, Mem.read, Spec.g3413cfb, Mem.write_nil]
  · obtain ⟨x', e, _⟩ := (g3413cfb_okG c sg hsg hle false).call m dst src (Or.inr hR) h2 h3 hC trivial
    refine ⟨x', ?_⟩
    rw [g3413cfbXor, e]
    simp only [blkRun, g3413cfbF_spec]

/-- C28 CFB (partial): decrypting into a separate buffer, in one call, restores a message encrypted in one
call.  Missing: decryption in place (`C28_g3413cfb_in_place_violated`). -/
theorem C28_g3413cfb_roundtrip_partial (iv : Bytes) (bits : Int) (x : Cfb) (sg : Nat)
    (hnew : g3413cfbNew c iv bits = .ok (x, sg)) (hsg : 0 < sg) (m m' : Mem) (x' : Cfb) (dst src out : Slice)
    (h : g3413cfbXor c sg false x m dst src = .ok (m', x')) (ho : src.len ≤ out.len)
    (hno : NoOverlap out ⟨dst.ptr, src.len, dst.cap⟩) :
    ∃ x'', g3413cfbXor c sg true x m' out ⟨dst.ptr, src.len, dst.cap⟩ =
      .ok (m'.write out.ptr (m.read src.ptr src.len), x'') := by
  obtain ⟨_, _, hiv, _, hle, _, hR⟩ := g3413cfbNew_ok c hnew
  obtain ⟨h2, h3⟩ := xorKeyStream_ok_only h
  rcases sameOrDisjoint_of_check dst src h3 with h0 | hC
  · refine ⟨x, ?_⟩
    have hp := hno.noPartial
    unfold g3413cfbXor xorKeyStream
    unfold NoPartialOverlap at hp
    rw [if_neg (by simp only; omega), hp]
    simp [h0, segLoop_zero, Mem.read, Mem.write_nil]
  · obtain ⟨_, e, _, el⟩ := (g3413cfb_okG c sg hsg hle false).call m dst src (Or.inr hR) h2 h3 hC trivial
    rw [g3413cfbXor, e] at h
    obtain ⟨rfl, rfl⟩ := Prod.mk.inj (Res.ok.inj h)
    have hd := hno.disjoint
    simp only at hd
    obtain ⟨x'', e2, _⟩ := (g3413cfb_okG c sg hsg hle true).call
      (m.write dst.ptr (blkRun sg (g3413cfbF c false) iv (m.read src.ptr src.len)).1) out ⟨dst.ptr, src.len, dst.cap⟩
      (Or.inr hR) ho hno.noPartial (by simpa [G3413C, DisjointRange] using hd) trivial
    refine ⟨x'', ?_⟩
    rw [g3413cfbXor, e2]
    simp only
    rw [Mem.read_write_self' _ _ _ _ el, (g3413cfb_roundtrip c sg hsg hle _ iv hiv).1]

/-- C28 CFB: segment-aligned histories of encryption calls decrypt with any segment-aligned history into
separate buffers. -/
theorem C28_g3413cfb_histories_partial (iv : Bytes) (bits : Int) (x : Cfb) (sg : Nat)
    (hnew : g3413cfbNew c iv bits = .ok (x, sg)) (hsg : 0 < sg) {A : Slice → Slice → Prop}
    {ins outs ins' outs' : List Bytes} {x1 x2 : Cfb} (he : Calls A (g3413cfbXor c sg false) x ins outs x1)
    (hd : Calls NoOverlap (g3413cfbXor c sg true) x ins' outs' x2)
    (ha : ∀ i ∈ ins, sg ∣ i.length) (hb : ∀ i ∈ ins', sg ∣ i.length)
    (h : ins'.flatten = outs.flatten) : outs'.flatten = ins.flatten := by
  obtain ⟨_, _, hiv, _, hle, _, hR⟩ := g3413cfbNew_ok c hnew
  have h1 := ((g3413cfb_okA c sg hsg hle false).calls (fun t a b h => blkRun_append sg hsg _ t a b h)
    (fun d s h _ => sameOrDisjoint_of_check d s h) hR he ha).1
  have h2 := ((g3413cfb_okA c sg hsg hle true).calls (fun t a b h => blkRun_append sg hsg _ t a b h)
    (fun d s _ h => Or.inr (by simpa [G3413C, DisjointRange] using h.disjoint)) hR hd hb).1
  rw [h2, h, h1]
  exact (g3413cfb_roundtrip c sg hsg hle _ iv hiv).1

/-- C29 for GOST R 34.13 CFB (partial): encryption histories of segment-aligned calls. -/
theorem C29_g3413cfb_pieces_partial (iv : Bytes) (bits : Int) (x : Cfb) (sg : Nat)
    (hnew : g3413cfbNew c iv bits = .ok (x, sg)) (hsg : 0 < sg) {A B : Slice → Slice → Prop}
    {ins outs ins' outs' : List Bytes} {x1 x2 : Cfb} (h1 : Calls A (g3413cfbXor c sg false) x ins outs x1)
    (h2 : Calls B (g3413cfbXor c sg false) x ins' outs' x2)
    (ha : ∀ i ∈ ins, sg ∣ i.length) (hb : ∀ i ∈ ins', sg ∣ i.length)
    (h : ins.flatten = ins'.flatten) : outs.flatten = outs'.flatten := by
  obtain ⟨_, _, hiv, _, hle, _, hR⟩ := g3413cfbNew_ok c hnew
  have e1 := ((g3413cfb_okA c sg hsg hle false).calls (fun t a b h => blkRun_append sg hsg _ t a b h)
    (fun d s h _ => sameOrDisjoint_of_check d s h) hR h1 ha).1
  have e2 := ((g3413cfb_okA c sg hsg hle false).calls (fun t a b h => blkRun_append sg hsg _ t a b h)
    (fun d s h _ => sameOrDisjoint_of_check d s h) hR h2 hb).1
  rw [e1, e2, h]

/-- C28 CFB with a bit size below 8: every non-empty call runs forever. -/
theorem C28_g3413cfb_zero_segment_hangs (iv : Bytes) (bits : Int) (x : Cfb) (sg : Nat)
    (hnew : g3413cfbNew c iv bits = .ok (x, sg)) (hbits : bits < 8) (dec : Bool) (m : Mem) (dst src : Slice)
    (h2 : src.len ≤ dst.len) (h3 : NoPartialOverlap dst src) (h0 : src.len ≠ 0) :
    g3413cfbXor c sg dec x m dst src = .hang := by
  obtain ⟨h1, hn, hiv, _, _, hs, _⟩ := g3413cfbNew_ok c hnew
  obtain rfl : sg = 0 := by omega
  exact g3413cfb_hang c dec x h1 (by rw [hn, hiv]) m dst src h2 h3 h0

/-- C29 fails for GOST R 34.13 CFB with full-block segments: after any call shorter than a segment, the next
non-empty call panics. -/
theorem C29_g3413cfb_violated (iv : Bytes) (x : Cfb) (hnew : g3413cfbNew c iv (8 * c.bs : Nat) = .ok (x, c.bs))
    (dec : Bool) (m m' : Mem) (x' : Cfb) (dst src : Slice) (h0 : src.len ≠ 0) (hl : src.len < c.bs)
    (h : g3413cfbXor c c.bs dec x m dst src = .ok (m', x')) (m2 : Mem) (dst2 src2 : Slice) (h02 : src2.len ≠ 0) :
    g3413cfbXor c c.bs dec x' m2 dst2 src2 = .panic := by
  obtain ⟨hu, hn, hiv, _, hle, _, _⟩ := g3413cfbNew_ok c hnew
  obtain ⟨k1, k2⟩ := g3413cfb_short c c.bs dec x hle hu (by rw [hn, hiv]) m dst src hl h0 m' x' h
  unfold g3413cfbXor xorKeyStream
  split
  · rfl
  · split
    · rfl
    · obtain ⟨k, hk⟩ : ∃ k, src2.len = k + 1 := ⟨src2.len - 1, by omega⟩
      rw [hk, segLoop, if_neg (by omega)]
      unfold g3413cfbStep
      have hne : ¬ x'.used = c.bs := by omega
      simp only [if_neg hne]
      rw [if_pos (by omega)]
      rfl

end

/-- Hypotheses of the theorems above are met (2-byte blocks, 1-byte segments; and full-block segments). -/
example : ∃ x m' x', g3413cfbNew toy2 [1, 2, 3, 4] 8 = .ok (x, 1) ∧
    g3413cfbXor toy2 1 false x (fun a => BitVec.ofNat 8 a) ⟨10, 3, 3⟩ ⟨0, 3, 3⟩ = .ok (m', x') ∧
    m'.read 10 3 = [3, 5, 7] ∧ NoOverlap ⟨20, 3, 3⟩ ⟨10, 3, 3⟩ := by
  obtain ⟨x', e⟩ := C28_g3413cfb_encrypt_spec toy2 [1, 2, 3, 4] 8 _ 1 rfl (by decide) (fun a => BitVec.ofNat 8 a)
    ⟨10, 3, 3⟩ ⟨0, 3, 3⟩ (by decide) (by decide)
  refine ⟨_, _, _, rfl, e, ?_, by decide⟩
  decide

example : ∃ x m' x', g3413cfbNew toy2 [1, 2, 3, 4] (8 * toy2.bs : Nat) = .ok (x, toy2.bs) ∧
    g3413cfbXor toy2 toy2.bs false x (fun a => BitVec.ofNat 8 a) ⟨10, 1, 1⟩ ⟨0, 1, 1⟩ = .ok (m', x') := by
  obtain ⟨x', e⟩ := C28_g3413cfb_encrypt_spec toy2 [1, 2, 3, 4] (8 * toy2.bs : Nat) _ 2 rfl (by decide)
    (fun a => BitVec.ofNat 8 a) ⟨10, 1, 1⟩ ⟨0, 1, 1⟩ (by decide) (by decide)
  exact ⟨_, _, _, rfl, e⟩

/-- C28 CFB fails for decryption in place: the ciphertext of six zero bytes, decrypted in place with the same
key, IV and segment size, is not six zero bytes. -/
theorem C28_g3413cfb_in_place_violated : ∃ x, g3413cfbNew toy2 [1, 2, 3, 4] 16 = .ok (x, 2) ∧
    ∃ m1 x1, g3413cfbXor toy2 2 false x (fun _ => 0) ⟨0, 6, 6⟩ ⟨0, 6, 6⟩ = .ok (m1, x1) ∧
    ∃ m2 x2, g3413cfbXor toy2 2 true x m1 ⟨0, 6, 6⟩ ⟨0, 6, 6⟩ = .ok (m2, x2) ∧
      m2.read 0 6 ≠ List.replicate 6 0 := by
  refine ⟨_, rfl, _, _, rfl, _, _, rfl, ?_⟩
  decide +kernel

/-! ### C28 GOST R 34.13 CTR -/

section
variable (c : BlockCipher)

theorem g3413ctrNew_ok {iv : Bytes} {bits sg : Nat} {x : KsBuf Bytes} (h : g3413ctrNew c iv bits = .ok (x, sg)) :
    x = ⟨iv ++ List.replicate (c.bs - iv.length) 0, [], 0⟩ ∧ iv.length = c.bs / 2 ∧ sg = bits / 8 := by
  unfold g3413ctrNew at h
  split at h
  · cases h
  · rename_i hl
    have hl' : iv.length = c.bs / 2 := by simpa using hl
    obtain ⟨rfl, rfl⟩ := Prod.mk.inj (Res.ok.inj h)
    refine ⟨?_, hl', rfl⟩
    rw [copyInto_len_le _ _ (by simp; omega)]
    simp

theorem two_le_bufCap (sg bs : Nat) (h : sg ≤ bs) (hbs : bs ≤ 256) : 2 * sg ≤ bufCap bs := by
  unfold bufCap; split <;> omega

/-- C28 CTR: one call writes plaintext XOR `T_s(E(CTR)) ‖ T_s(E(CTR+1)) ‖ …`, counters starting at
`IV ‖ 0…0` and wrapping modulo `2^n`. -/
theorem C28_g3413ctr_spec (hbs : c.bs ≤ 256) (iv : Bytes) (bits sg : Nat) (x : KsBuf Bytes)
    (hnew : g3413ctrNew c iv bits = .ok (x, sg)) (hsg : 0 < sg) (hle : sg ≤ c.bs) (m : Mem) (dst src : Slice)
    (h2 : src.len ≤ dst.len) (h3 : NoPartialOverlap dst src) :
    ∃ x', g3413ctrXor c sg x m dst src = .ok (m.write dst.ptr (xorb (m.read src.ptr src.len)
      (Spec.keyBytes (Spec.streamOf sg (Spec.g3413ctrBlock c.bs sg c.E iv)) 0 src.len)), x') := by
  obtain ⟨rfl, hl, _⟩ := g3413ctrNew_ok c hnew
  obtain ⟨x', e, _⟩ := (ctr_ok c sg hsg hle (two_le_bufCap _ _ hle hbs) (iv ++ List.replicate (c.bs - iv.length) 0)
    (by simp; omega)).call (bufR_init _ _ _ (Nat.le_refl _)) m dst src h2 h3
  refine ⟨x', ?_⟩
  rw [g3413ctrXor, e]
  simp only [addRun, Mem.read_length, ksTake_keyBytes]
  rfl

/-- C28 CTR: a second object with the same IV undoes any history. -/
theorem C28_g3413ctr_roundtrip (hbs : c.bs ≤ 256) (iv : Bytes) (bits sg : Nat) (x : KsBuf Bytes)
    (hnew : g3413ctrNew c iv bits = .ok (x, sg)) (hsg : 0 < sg) (hle : sg ≤ c.bs)
    {A B : Slice → Slice → Prop} {ins outs ins' outs' : List Bytes} {x1 x2 : KsBuf Bytes}
    (he : Calls A (g3413ctrXor c sg) x ins outs x1) (hd : Calls B (g3413ctrXor c sg) x ins' outs' x2)
    (h : ins'.flatten = outs.flatten) : outs'.flatten = ins.flatten := by
  obtain ⟨rfl, hl, _⟩ := g3413ctrNew_ok c hnew
  have hok := ctr_ok c sg hsg hle (two_le_bufCap _ _ hle hbs) (iv ++ List.replicate (c.bs - iv.length) 0)
    (by simp; omega)
  exact hok.undo hok (addRun_append _) (addRun_append _)
    (addRun_roundtrip _ 0) (bufR_init _ _ _ (Nat.le_refl _)) (bufR_init _ _ _ (Nat.le_refl _)) he hd h

/-- C28 CTR: exactly which calls panic; none hangs. -/
theorem C28_g3413ctr_panics_iff (hbs : c.bs ≤ 256) (iv : Bytes) (bits sg : Nat) (x : KsBuf Bytes)
    (hnew : g3413ctrNew c iv bits = .ok (x, sg)) (hsg : 0 < sg) (hle : sg ≤ c.bs)
    {A : Slice → Slice → Prop} {ins outs : List Bytes} {x1 : KsBuf Bytes}
    (he : Calls A (g3413ctrXor c sg) x ins outs x1) (m : Mem) (dst src : Slice) :
    (g3413ctrXor c sg x1 m dst src = .panic ↔ (dst.len < src.len ∨ ¬ NoPartialOverlap dst src)) ∧
    g3413ctrXor c sg x1 m dst src ≠ .hang ∧ g3413ctrXor c sg x1 m dst src ≠ .err := by
  obtain ⟨rfl, hl, _⟩ := g3413ctrNew_ok c hnew
  have hok := ctr_ok c sg hsg hle (two_le_bufCap _ _ hle hbs) (iv ++ List.replicate (c.bs - iv.length) 0)
    (by simp; omega)
  exact hok.panics_iff (hok.calls (fun _ => True)
    (fun t a b _ => addRun_append _ t a b) (bufR_init _ _ _ (Nat.le_refl _)) he (fun _ _ => trivial)).2 m dst src

/-- C29 for GOST R 34.13 CTR. -/
theorem C29_g3413ctr_pieces (hbs : c.bs ≤ 256) (iv : Bytes) (bits sg : Nat) (x : KsBuf Bytes)
    (hnew : g3413ctrNew c iv bits = .ok (x, sg)) (hsg : 0 < sg) (hle : sg ≤ c.bs)
    {A B : Slice → Slice → Prop} {ins outs ins' outs' : List Bytes} {x1 x2 : KsBuf Bytes}
    (h1 : Calls A (g3413ctrXor c sg) x ins outs x1) (h2 : Calls B (g3413ctrXor c sg) x ins' outs' x2)
    (h : ins.flatten = ins'.flatten) : outs.flatten = outs'.flatten := by
  obtain ⟨rfl, hl, _⟩ := g3413ctrNew_ok c hnew
  have hok := ctr_ok c sg hsg hle (two_le_bufCap _ _ hle hbs) (iv ++ List.replicate (c.bs - iv.length) 0)
    (by simp; omega)
  exact hok.pieces (fun _ => True) (fun t a b _ => addRun_append _ t a b)
    (bufR_init _ _ _ (Nat.le_refl _)) h1 (fun _ _ => trivial) h2 (fun _ _ => trivial) h

/-- C28 CTR outside its range: bit sizes below 8 make the first non-empty call run forever; bit sizes above the
block make it panic (the constructor accepts both). -/
theorem C28_g3413ctr_bad_bits (iv : Bytes) (bits sg : Nat) (x : KsBuf Bytes)
    (hnew : g3413ctrNew c iv bits = .ok (x, sg)) (m : Mem) (dst src : Slice)
    (h2 : src.len ≤ dst.len) (h3 : NoPartialOverlap dst src) (h0 : src.len ≠ 0) :
    (bits < 8 → g3413ctrXor c sg x m dst src = .hang) ∧
    (8 * c.bs + 8 ≤ bits → g3413ctrXor c sg x m dst src = .panic) := by
  obtain ⟨rfl, hl, rfl⟩ := g3413ctrNew_ok c hnew
  obtain ⟨k, hk⟩ : ∃ k, src.len = k + 1 := ⟨src.len - 1, by omega⟩
  unfold NoPartialOverlap at h3
  have hx : ∀ sg x, g3413ctrXor c sg x m dst src =
      segLoop (g3413ctrStep c sg (dst.len - src.len)) src.len x m dst.ptr src.ptr src.len := by
    intro sg x
    unfold g3413ctrXor xorKeyStream
    rw [if_neg (by omega), h3]
    rfl
  rw [hx]
  constructor
  · intro hb
    rw [show bits / 8 = 0 by omega, hk, segLoop, if_neg (by omega)]
    unfold g3413ctrStep
    rw [if_neg (by omega)]
    simp only [Nat.add_zero, List.length_nil, ge_iff_le, Nat.le_refl, if_true]
    unfold refill
    simp only [Bool.false_and, Bool.false_eq_true, if_false, List.length_nil, Nat.lt_irrefl]
    rw [refillLoop_hang_of_nil _ (fun r => by simp [ctrGen]) _ _ _ _ (by simp)]
    rfl
  · intro hb
    rw [hk, segLoop, if_neg (by omega)]
    unfold g3413ctrStep
    rw [if_pos (by omega)]
    rfl

end

example : ∃ x outs x1, g3413ctrNew toy2 [7] 8 = .ok (x, 1) ∧
    Calls (fun _ _ => True) (g3413ctrXor toy2 1) x [[1], [2, 3, 4]] outs x1 := by
  obtain ⟨outs, x1, h⟩ := (ctr_ok toy2 1 (by decide) (by decide) (by decide) [7, 0] rfl).calls_exist
    [[1], [2, 3, 4]] _ _ (bufR_init _ _ _ (Nat.le_refl _))
  exact ⟨_, outs, x1, rfl, h⟩

/-! ### C28 GOST R 34.13 OFB -/

section
variable (c : BlockCipher)

theorem g3413ofbNew_ok {iv : Bytes} {x : KsBuf Bytes} (h : g3413ofbNew c iv = .ok x) :
    x = ⟨iv.take c.bs ++ iv.drop c.bs, [], 0⟩ ∧ (iv.take c.bs).length = c.bs ∧ (iv.drop c.bs).length = c.bs := by
  unfold g3413ofbNew at h
  split at h
  · cases h
  · rename_i hl
    have hl' : iv.length = 2 * c.bs := by simpa using hl
    obtain rfl := Res.ok.inj h
    rw [copyInto_len_le _ _ (by simp [hl'])]
    simp [hl']
    omega

/-- C28 OFB: one call writes plaintext XOR the key stream `y_0 y_1 …` with `y_0 = E(IV_1)`, `y_1 = E(IV_2)`,
`y_{j+2} = E(y_j)`. -/
theorem C28_g3413ofb_spec (hbs : c.bs < 512) (iv : Bytes) (x : KsBuf Bytes) (hnew : g3413ofbNew c iv = .ok x)
    (m : Mem) (dst src : Slice) (h2 : src.len ≤ dst.len) (h3 : NoPartialOverlap dst src) :
    ∃ x', g3413ofbXor c x m dst src = .ok (m.write dst.ptr (xorb (m.read src.ptr src.len)
      (Spec.keyBytes (Spec.streamOf c.bs (Spec.g3413ofbBlock c.E (iv.take c.bs) (iv.drop c.bs))) 0 src.len)), x') := by
  obtain ⟨rfl, h1, h1'⟩ := g3413ofbNew_ok c hnew
  obtain ⟨x', e, _⟩ := (g3413ofb_ok c _ _ h1 h1' hbs).call (bufR_init _ _ _ (Nat.le_refl _)) m dst src h2 h3
  refine ⟨x', ?_⟩
  rw [g3413ofbXor, e]
  simp only [addRun, Mem.read_length, ksTake_keyBytes]

/-- C28 OFB: a second object with the same IV undoes any history. -/
theorem C28_g3413ofb_roundtrip (hbs : c.bs < 512) (iv : Bytes) (x : KsBuf Bytes) (hnew : g3413ofbNew c iv = .ok x)
    {A B : Slice → Slice → Prop} {ins outs ins' outs' : List Bytes} {x1 x2 : KsBuf Bytes}
    (he : Calls A (g3413ofbXor c) x ins outs x1) (hd : Calls B (g3413ofbXor c) x ins' outs' x2)
    (h : ins'.flatten = outs.flatten) : outs'.flatten = ins.flatten := by
  obtain ⟨rfl, h1, h1'⟩ := g3413ofbNew_ok c hnew
  have hok := g3413ofb_ok c _ _ h1 h1' hbs
  exact hok.undo hok (addRun_append _) (addRun_append _)
    (addRun_roundtrip _ 0) (bufR_init _ _ _ (Nat.le_refl _)) (bufR_init _ _ _ (Nat.le_refl _)) he hd h

/-- C28 OFB: exactly which calls panic; none hangs. -/
theorem C28_g3413ofb_panics_iff (hbs : c.bs < 512) (iv : Bytes) (x : KsBuf Bytes)
    (hnew : g3413ofbNew c iv = .ok x) {A : Slice → Slice → Prop} {ins outs : List Bytes} {x1 : KsBuf Bytes}
    (he : Calls A (g3413ofbXor c) x ins outs x1) (m : Mem) (dst src : Slice) :
    (g3413ofbXor c x1 m dst src = .panic ↔ (dst.len < src.len ∨ ¬ NoPartialOverlap dst src)) ∧
    g3413ofbXor c x1 m dst src ≠ .hang ∧ g3413ofbXor c x1 m dst src ≠ .err := by
  obtain ⟨rfl, h1, h1'⟩ := g3413ofbNew_ok c hnew
  have hok := g3413ofb_ok c _ _ h1 h1' hbs
  exact hok.panics_iff (hok.calls (fun _ => True)
    (fun t a b _ => addRun_append _ t a b) (bufR_init _ _ _ (Nat.le_refl _)) he (fun _ _ => trivial)).2 m dst src

/-- C29 for GOST R 34.13 OFB. -/
theorem C29_g3413ofb_pieces (hbs : c.bs < 512) (iv : Bytes) (x : KsBuf Bytes) (hnew : g3413ofbNew c iv = .ok x)
    {A B : Slice → Slice → Prop} {ins outs ins' outs' : List Bytes} {x1 x2 : KsBuf Bytes}
    (h1 : Calls A (g3413ofbXor c) x ins outs x1) (h2 : Calls B (g3413ofbXor c) x ins' outs' x2)
    (h : ins.flatten = ins'.flatten) : outs.flatten = outs'.flatten := by
  obtain ⟨rfl, k1, k2⟩ := g3413ofbNew_ok c hnew
  have hok := g3413ofb_ok c _ _ k1 k2 hbs
  exact hok.pieces (fun _ => True) (fun t a b _ => addRun_append _ t a b)
    (bufR_init _ _ _ (Nat.le_refl _)) h1 (fun _ _ => trivial) h2 (fun _ _ => trivial) h

end

example : ∃ x outs x1, g3413ofbNew toy2 [1, 2, 3, 4] = .ok x ∧
    Calls (fun _ _ => True) (g3413ofbXor toy2) x [[1], [2, 3, 4]] outs x1 := by
  obtain ⟨outs, x1, h⟩ := (g3413ofb_ok toy2 [1, 2] [3, 4] rfl rfl (by decide)).calls_exist
    [[1], [2, 3, 4]] _ _ (bufR_init _ _ _ (Nat.le_refl _))
  exact ⟨_, outs, x1, rfl, h⟩

end Verif.Mode
