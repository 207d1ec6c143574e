import Verif.Mode.OcfbLemmas
import Verif.Mode.StreamProps
/-
C22–C25 and C29 (part): OFB, OFB8, NOFB, NCFB and OpenPGP CFB.  See StreamProps.lean for the reading guide.
-/
namespace Verif.Mode

variable (c : BlockCipher)

/-! ### C22 OFB -/

/-- C22: one call writes plaintext XOR the OFB key stream `E(IV) ‖ E(E(IV)) ‖ …` and changes nothing else. -/
theorem C22_ofb_spec (hbs : c.bs < 512) (iv : Bytes) (x : KsBuf Bytes) (hnew : ofbNew c iv = .ok x) (m : Mem)
    (dst src : Slice) (h2 : src.len ≤ dst.len) (h3 : NoPartialOverlap dst src) :
    ∃ x', ofbXor c x m dst src = .ok (m.write dst.ptr (xorb (m.read src.ptr src.len)
      (Spec.keyBytes (Spec.streamOf c.bs (Spec.ofbBlock c.E iv)) 0 src.len)), x') := by
  obtain ⟨rfl, hl⟩ := ofbNew_ok c hnew
  obtain ⟨x', e, _⟩ := (ofb_ok c iv hl hbs).call (bufR_init _ _ _ (Nat.le_refl _)) m dst src h2 h3
  refine ⟨x', ?_⟩
  rw [ofbXor, e]
  simp only [addRun, Mem.read_length, ksTake_keyBytes]

example : ∃ x m' x', ofbNew toy2 [7, 8] = .ok x ∧
    ofbXor toy2 x (fun a => BitVec.ofNat 8 a) ⟨1, 3, 3⟩ ⟨1, 3, 3⟩ = .ok (m', x') ∧
    m'.read 0 5 = [0, 8, 10, 10, 4] := by
  obtain ⟨x', h⟩ := C22_ofb_spec toy2 (by decide) [7, 8] _ rfl (fun a => BitVec.ofNat 8 a) ⟨1, 3, 3⟩ ⟨1, 3, 3⟩
    (by decide) (by decide)
  refine ⟨_, _, _, rfl, h, ?_⟩
  decide

/-- C22: a second object with the same IV undoes any history. -/
theorem C22_ofb_roundtrip (hbs : c.bs < 512) (iv : Bytes) (x : KsBuf Bytes) (hnew : ofbNew c iv = .ok x)
    {A B : Slice → Slice → Prop} {ins outs ins' outs' : List Bytes} {x1 x2 : KsBuf Bytes}
    (he : Calls A (ofbXor c) x ins outs x1) (hd : Calls B (ofbXor c) x ins' outs' x2)
    (h : ins'.flatten = outs.flatten) : outs'.flatten = ins.flatten := by
  obtain ⟨rfl, hl⟩ := ofbNew_ok c hnew
  exact (ofb_ok c iv hl hbs).undo (ofb_ok c iv hl hbs) (addRun_append _) (addRun_append _)
    (addRun_roundtrip _ 0) (bufR_init _ _ _ (Nat.le_refl _)) (bufR_init _ _ _ (Nat.le_refl _)) he hd h

example : ∃ outs x1, Calls (fun _ _ => True) (ofbXor toy2) ⟨[7, 8], [], 0⟩ [[1], [2, 3, 4]] outs x1 :=
  (ofb_ok toy2 [7, 8] rfl (by decide)).calls_exist _ _ _ (bufR_init _ _ _ (Nat.le_refl _))

/-- C22: exactly which calls panic, in every reachable state; none hangs. -/
theorem C22_ofb_panics_iff (hbs : c.bs < 512) (iv : Bytes) (x : KsBuf Bytes) (hnew : ofbNew c iv = .ok x)
    {A : Slice → Slice → Prop} {ins outs : List Bytes} {x1 : KsBuf Bytes} (he : Calls A (ofbXor c) x ins outs x1)
    (m : Mem) (dst src : Slice) :
    (ofbXor c x1 m dst src = .panic ↔ (dst.len < src.len ∨ ¬ NoPartialOverlap dst src)) ∧
    ofbXor c x1 m dst src ≠ .hang ∧ ofbXor c x1 m dst src ≠ .err := by
  obtain ⟨rfl, hl⟩ := ofbNew_ok c hnew
  exact (ofb_ok c iv hl hbs).panics_iff ((ofb_ok c iv hl hbs).calls (fun _ => True)
    (fun t a b _ => addRun_append _ t a b) (bufR_init _ _ _ (Nat.le_refl _)) he (fun _ _ => trivial)).2 m dst src

/-- C22 outside its range: with a block of 512 bytes or more the first non-empty call never returns. -/
theorem C22_ofb_large_block_hangs (hbs : 512 ≤ c.bs) (iv : Bytes) (x : KsBuf Bytes) (hnew : ofbNew c iv = .ok x)
    (m : Mem) (dst src : Slice) (h2 : src.len ≤ dst.len) (h3 : NoPartialOverlap dst src) (h0 : src.len ≠ 0) :
    ofbXor c x m dst src = .hang := by
  obtain ⟨rfl, hl⟩ := ofbNew_ok c hnew
  unfold ofbXor xorKeyStream
  unfold NoPartialOverlap at h3
  rw [if_neg (by omega), h3]
  simp only [Bool.false_eq_true, if_false]
  apply segLoop_hang_of_stuck _ (fun st => st.out = [] ∧ st.used = 0) _ _ _ _ _ _ _ ⟨rfl, rfl⟩ h0
  rintro ⟨reg, out, used⟩ m d s l ⟨h1, h2⟩
  simp only at h1 h2
  subst h1 h2
  have hcap : bufCap c.bs - c.bs = 0 := by unfold bufCap; split <;> omega
  have hr : refill true (bufCap c.bs - c.bs) (ofbGen c) ⟨reg, [], 0⟩ = .ok ⟨reg, [], 0⟩ := by
    rw [hcap]; rfl
  refine ⟨⟨reg, [], 0⟩, m.write d [], ?_, rfl, rfl⟩
  unfold ofbStep
  rw [if_pos (by simp), hr]
  simp [xorb]

/-- C29 for OFB. -/
theorem C29_ofb_pieces (hbs : c.bs < 512) (iv : Bytes) (x : KsBuf Bytes) (hnew : ofbNew c iv = .ok x)
    {A B : Slice → Slice → Prop} {ins outs ins' outs' : List Bytes} {x1 x2 : KsBuf Bytes}
    (h1 : Calls A (ofbXor c) x ins outs x1) (h2 : Calls B (ofbXor c) x ins' outs' x2)
    (h : ins.flatten = ins'.flatten) : outs.flatten = outs'.flatten := by
  obtain ⟨rfl, hl⟩ := ofbNew_ok c hnew
  exact (ofb_ok c iv hl hbs).pieces (fun _ => True) (fun t a b _ => addRun_append _ t a b)
    (bufR_init _ _ _ (Nat.le_refl _)) h1 (fun _ _ => trivial) h2 (fun _ _ => trivial) h

/-! ### C23 OFB8 -/

/-- C23: one call writes plaintext XOR the 8-bit OFB key stream. -/
theorem C23_ofb8_spec (iv : Bytes) (x : KsBuf Bytes) (hnew : ofbNew c iv = .ok x) (m : Mem)
    (dst src : Slice) (h2 : src.len ≤ dst.len) (h3 : NoPartialOverlap dst src) :
    ∃ x', ofb8Xor c x m dst src = .ok (m.write dst.ptr (xorb (m.read src.ptr src.len)
      (Spec.keyBytes (Spec.ofb8Byte c.E iv) 0 src.len)), x') := by
  obtain ⟨rfl, hl⟩ := ofbNew_ok c hnew
  obtain ⟨x', e, _⟩ := (ofb8_ok c iv hl).call (bufR_init _ _ _ (Nat.le_refl _)) m dst src h2 h3
  refine ⟨x', ?_⟩
  rw [ofb8Xor, e]
  simp only [addRun, Mem.read_length, ksTake_keyBytes]

example : ∃ x, ofbNew toy2 [7, 8] = .ok x ∧ Spec.keyBytes (Spec.ofb8Byte toy2.E [7, 8]) 0 3 = [9, 10, 11] :=
  ⟨_, rfl, by decide⟩

/-- C23: a second object with the same IV undoes any history. -/
theorem C23_ofb8_roundtrip (iv : Bytes) (x : KsBuf Bytes) (hnew : ofbNew c iv = .ok x)
    {A B : Slice → Slice → Prop} {ins outs ins' outs' : List Bytes} {x1 x2 : KsBuf Bytes}
    (he : Calls A (ofb8Xor c) x ins outs x1) (hd : Calls B (ofb8Xor c) x ins' outs' x2)
    (h : ins'.flatten = outs.flatten) : outs'.flatten = ins.flatten := by
  obtain ⟨rfl, hl⟩ := ofbNew_ok c hnew
  exact (ofb8_ok c iv hl).undo (ofb8_ok c iv hl) (addRun_append _) (addRun_append _)
    (addRun_roundtrip _ 0) (bufR_init _ _ _ (Nat.le_refl _)) (bufR_init _ _ _ (Nat.le_refl _)) he hd h

example : ∃ outs x1, Calls (fun _ _ => True) (ofb8Xor toy2) ⟨[7, 8], [], 0⟩ [[1], [2, 3, 4]] outs x1 :=
  (ofb8_ok toy2 [7, 8] rfl).calls_exist _ _ _ (bufR_init _ _ _ (Nat.le_refl _))

/-- C23: exactly which calls panic, in every reachable state. -/
theorem C23_ofb8_panics_iff (iv : Bytes) (x : KsBuf Bytes) (hnew : ofbNew c iv = .ok x)
    {A : Slice → Slice → Prop} {ins outs : List Bytes} {x1 : KsBuf Bytes} (he : Calls A (ofb8Xor c) x ins outs x1)
    (m : Mem) (dst src : Slice) :
    (ofb8Xor c x1 m dst src = .panic ↔ (dst.len < src.len ∨ ¬ NoPartialOverlap dst src)) ∧
    ofb8Xor c x1 m dst src ≠ .hang ∧ ofb8Xor c x1 m dst src ≠ .err := by
  obtain ⟨rfl, hl⟩ := ofbNew_ok c hnew
  exact (ofb8_ok c iv hl).panics_iff ((ofb8_ok c iv hl).calls (fun _ => True)
    (fun t a b _ => addRun_append _ t a b) (bufR_init _ _ _ (Nat.le_refl _)) he (fun _ _ => trivial)).2 m dst src

/-- C29 for OFB8. -/
theorem C29_ofb8_pieces (iv : Bytes) (x : KsBuf Bytes) (hnew : ofbNew c iv = .ok x)
    {A B : Slice → Slice → Prop} {ins outs ins' outs' : List Bytes} {x1 x2 : KsBuf Bytes}
    (h1 : Calls A (ofb8Xor c) x ins outs x1) (h2 : Calls B (ofb8Xor c) x ins' outs' x2)
    (h : ins.flatten = ins'.flatten) : outs.flatten = outs'.flatten := by
  obtain ⟨rfl, hl⟩ := ofbNew_ok c hnew
  exact (ofb8_ok c iv hl).pieces (fun _ => True) (fun t a b _ => addRun_append _ t a b)
    (bufR_init _ _ _ (Nat.le_refl _)) h1 (fun _ _ => trivial) h2 (fun _ _ => trivial) h

/-! ### C24 NOFB and NCFB -/

/-- C24: the first NOFB call writes plaintext XOR the OFB key stream. -/
theorem C24_nofb_spec (hbs : c.bs < 512) (iv : Bytes) (x : KsBuf Bytes) (hnew : ofbNew c iv = .ok x) (m : Mem)
    (dst src : Slice) (h2 : src.len ≤ dst.len) (h3 : NoPartialOverlap dst src) :
    ∃ x', nofbXor c x m dst src = .ok (m.write dst.ptr (xorb (m.read src.ptr src.len)
      (Spec.keyBytes (Spec.streamOf c.bs (Spec.ofbBlock c.E iv)) 0 src.len)), x') := by
  obtain ⟨rfl, hl⟩ := ofbNew_ok c hnew
  obtain ⟨x', e, _⟩ := (nofb_ok c iv hl hbs).call (t := 0)
    (by simpa using bufR_init _ _ _ (Nat.le_refl _)) m dst src h2 h3
  refine ⟨x', ?_⟩
  rw [nofbXor, e, nofb_run, Nat.zero_mul]
  simp only [Mem.read_length, ksTake_keyBytes]

/-- C24: one NCFB encryption writes the CFB ciphertext. -/
theorem C24_ncfb_encrypt_spec (iv : Bytes) (x : Cfb) (hnew : cfbNew c iv = .ok x) (m : Mem) (dst src : Slice)
    (h2 : src.len ≤ dst.len) (h3 : NoPartialOverlap dst src) :
    ∃ x', ncfbXor c false x m dst src =
      .ok (m.write dst.ptr (Spec.cfb c.E iv (chunks c.bs (m.read src.ptr src.len))).flatten, x') := by
  obtain ⟨hl, hR⟩ := cfbNew_NcfbR c hnew
  obtain ⟨x', e, _⟩ := (ncfb_ok c false).call hR m dst src h2 h3
  exact ⟨x', by rw [ncfbXor, e, ncfbF_spec c iv hl]⟩

example : ∃ x m' x', cfbNew toy2 [7, 8] = .ok x ∧
    ncfbXor toy2 false x (fun a => BitVec.ofNat 8 a) ⟨1, 3, 3⟩ ⟨1, 3, 3⟩ = .ok (m', x') ∧
    m'.read 0 5 = [0, 8, 10, 8, 4] := by
  refine ⟨_, _, _, rfl, rfl, ?_⟩
  decide

/-- C24: NOFB: a second object fed the same pieces restores the plaintext. -/
theorem C24_nofb_roundtrip (hbs : c.bs < 512) (iv : Bytes) (x : KsBuf Bytes) (hnew : ofbNew c iv = .ok x)
    {A B : Slice → Slice → Prop} {ins outs outs' : List Bytes} {x1 x2 : KsBuf Bytes}
    (he : Calls A (nofbXor c) x ins outs x1) (hd : Calls B (nofbXor c) x outs outs' x2) : outs' = ins := by
  obtain ⟨rfl, hl⟩ := ofbNew_ok c hnew
  have hR : BufR (ofbGen c) c.bs ⟨iv, [], 0⟩ ⟨iv, [], 0⟩ (0 * c.bs) := by
    simpa using bufR_init (ofbGen c) c.bs ⟨iv, [], 0⟩ (Nat.le_refl _)
  refine calls_same_roundtrip (nofb_ok c iv hl hbs) (nofb_ok c iv hl hbs) (fun a b => a = b) ?_ he hd 0 0 hR hR rfl
  rintro t _ y rfl
  exact blkRun_roundtrip_any c.bs c.bs_pos _ _ (fun a b => a = b) (by
    rintro t _ b rfl hb
    have : (xorb b (ksTake (Spec.streamOf c.bs (Spec.ofbBlock c.E iv)) (t * c.bs) b.length)).length = b.length := by
      simp
    refine ⟨this, ?_, rfl⟩
    simp only [nofbF, this]
    exact xorb_xorb_cancel_right _ _ (by simp)) y t t rfl

/-- C24: NCFB: the decrypter fed the pieces the encrypter produced restores the plaintext. -/
theorem C24_ncfb_roundtrip (iv : Bytes) (x : Cfb) (hnew : cfbNew c iv = .ok x)
    {A B : Slice → Slice → Prop} {ins outs outs' : List Bytes} {x1 x2 : Cfb}
    (he : Calls A (ncfbXor c false) x ins outs x1) (hd : Calls B (ncfbXor c true) x outs outs' x2) :
    outs' = ins := by
  obtain ⟨hl, hR⟩ := cfbNew_NcfbR c hnew
  refine calls_same_roundtrip (ncfb_ok c false) (ncfb_ok c true)
    (fun a b => a = b ∧ a.length = c.bs) ?_ he hd iv iv hR hR ⟨rfl, hl⟩
  rintro t _ y ⟨rfl, ht⟩
  exact ncfb_roundtrip c y t ht

example : ∃ outs x1, Calls (fun _ _ => True) (nofbXor toy2) ⟨[7, 8], [], 0⟩ [[1], [2, 3, 4]] outs x1 :=
  (nofb_ok toy2 [7, 8] rfl (by decide)).calls_exist _ _ 0 (by simpa using bufR_init _ _ _ (Nat.le_refl _))
example : ∃ x outs x1, cfbNew toy2 [7, 8] = .ok x ∧
    Calls (fun _ _ => True) (ncfbXor toy2 false) x [[1], [2, 3, 4]] outs x1 := by
  obtain ⟨_, hR⟩ := cfbNew_NcfbR toy2 (iv := [7, 8]) rfl
  obtain ⟨o, s, h⟩ := (ncfb_ok toy2 false).calls_exist [[1], [2, 3, 4]] _ _ hR
  exact ⟨_, o, s, rfl, h⟩

/-- C24: exactly which calls panic on a new object. -/
theorem C24_panics_iff (hbs : c.bs < 512) (dec : Bool) (iv : Bytes) (x : KsBuf Bytes) (y : Cfb)
    (hx : ofbNew c iv = .ok x) (hy : cfbNew c iv = .ok y) (m : Mem) (dst src : Slice) :
    (nofbXor c x m dst src = .panic ↔ (dst.len < src.len ∨ ¬ NoPartialOverlap dst src)) ∧
    nofbXor c x m dst src ≠ .hang ∧
    (ncfbXor c dec y m dst src = .panic ↔ (dst.len < src.len ∨ ¬ NoPartialOverlap dst src)) ∧
    ncfbXor c dec y m dst src ≠ .hang := by
  obtain ⟨rfl, hl⟩ := ofbNew_ok c hx
  obtain ⟨_, hR⟩ := cfbNew_NcfbR c hy
  have a := (nofb_ok c iv hl hbs).panics_iff (t := 0) (by simpa using bufR_init _ _ _ (Nat.le_refl _)) m dst src
  have b := (ncfb_ok c dec).panics_iff hR m dst src
  exact ⟨a.1, a.2.1, b.1, b.2.1⟩

/-- C29 for NOFB when every call but the last feeds whole blocks.  Missing: other splits
(`C29_nofb_violated`). -/
theorem C29_nofb_pieces_partial (hbs : c.bs < 512) (iv : Bytes) (x : KsBuf Bytes) (hnew : ofbNew c iv = .ok x)
    {A B : Slice → Slice → Prop} {ins outs ins' outs' : List Bytes} {x1 x2 : KsBuf Bytes}
    (h1 : Calls A (nofbXor c) x ins outs x1) (hi : ∀ i ∈ ins.dropLast, c.bs ∣ i.length)
    (h2 : Calls B (nofbXor c) x ins' outs' x2) (hi' : ∀ i ∈ ins'.dropLast, c.bs ∣ i.length)
    (h : ins.flatten = ins'.flatten) : outs.flatten = outs'.flatten := by
  obtain ⟨rfl, hl⟩ := ofbNew_ok c hnew
  exact (nofb_ok c iv hl hbs).pieces (t := 0) (fun i => c.bs ∣ i.length)
    (fun t a b ha => blkRun_append c.bs c.bs_pos _ t a b ha)
    (by simpa using bufR_init _ _ _ (Nat.le_refl _)) h1 hi h2 hi' h

/-- C29 does not hold for NOFB: calls of 1 and 1 bytes differ from one call of 2 bytes. -/
theorem C29_nofb_violated : ∃ (c : BlockCipher) (iv : Bytes) (x : KsBuf Bytes) (m m1 m2 m3 : Mem)
    (x1 x2 x3 : KsBuf Bytes), ofbNew c iv = .ok x ∧
    nofbXor c x m ⟨0, 1, 1⟩ ⟨0, 1, 1⟩ = .ok (m1, x1) ∧
    nofbXor c x1 m1 ⟨1, 1, 1⟩ ⟨1, 1, 1⟩ = .ok (m2, x2) ∧
    nofbXor c x m ⟨0, 2, 2⟩ ⟨0, 2, 2⟩ = .ok (m3, x3) ∧ m2.read 0 2 ≠ m3.read 0 2 := by
  have h := nofb_ok toy2 [1, 2] rfl (by decide)
  have hR : BufR (ofbGen toy2) 2 ⟨[1, 2], [], 0⟩ ⟨[1, 2], [], 0⟩ (0 * 2) := bufR_init _ _ _ (Nat.le_refl _)
  obtain ⟨x1, e1, r1, _⟩ := h.call hR (fun _ => 0) ⟨0, 1, 1⟩ ⟨0, 1, 1⟩ (by decide) (by decide)
  obtain ⟨x2, e2, _⟩ := h.call r1 (Mem.write (fun _ => 0) 0 (blkRun toy2.bs (nofbF toy2 (Spec.streamOf toy2.bs
    (Spec.ofbBlock toy2.E [1, 2]))) 0 (Mem.read (fun _ => 0) 0 1)).1) ⟨1, 1, 1⟩ ⟨1, 1, 1⟩ (by decide) (by decide)
  obtain ⟨x3, e3, _⟩ := h.call hR (fun _ => 0) ⟨0, 2, 2⟩ ⟨0, 2, 2⟩ (by decide) (by decide)
  refine ⟨toy2, [1, 2], _, _, _, _, _, _, _, _, rfl, e1, e2, e3, ?_⟩
  decide

/-- C29 for NCFB when every call but the last feeds whole blocks. -/
theorem C29_ncfb_pieces_partial (dec : Bool) (iv : Bytes) (x : Cfb) (hnew : cfbNew c iv = .ok x)
    {A B : Slice → Slice → Prop} {ins outs ins' outs' : List Bytes} {x1 x2 : Cfb}
    (h1 : Calls A (ncfbXor c dec) x ins outs x1) (hi : ∀ i ∈ ins.dropLast, c.bs ∣ i.length)
    (h2 : Calls B (ncfbXor c dec) x ins' outs' x2) (hi' : ∀ i ∈ ins'.dropLast, c.bs ∣ i.length)
    (h : ins.flatten = ins'.flatten) : outs.flatten = outs'.flatten := by
  obtain ⟨hl, hR⟩ := cfbNew_NcfbR c hnew
  exact (ncfb_ok c dec).pieces (fun i => c.bs ∣ i.length)
    (fun t a b ha => blkRun_append c.bs c.bs_pos _ t a b ha) hR h1 hi h2 hi' h

/-- C29 does not hold for NCFB. -/
theorem C29_ncfb_violated : ∃ (c : BlockCipher) (iv : Bytes) (x : Cfb) (m m1 m2 m3 : Mem)
    (x1 x2 x3 : Cfb), cfbNew c iv = .ok x ∧
    ncfbXor c false x m ⟨0, 1, 1⟩ ⟨0, 1, 1⟩ = .ok (m1, x1) ∧
    ncfbXor c false x1 m1 ⟨1, 1, 1⟩ ⟨1, 1, 1⟩ = .ok (m2, x2) ∧
    ncfbXor c false x m ⟨0, 2, 2⟩ ⟨0, 2, 2⟩ = .ok (m3, x3) ∧ m2.read 0 2 ≠ m3.read 0 2 := by
  refine ⟨toy2, [1, 2], _, fun _ => 0, _, _, _, _, _, _, rfl, rfl, rfl, rfl, ?_⟩
  decide

/-! ### C25 OpenPGP CFB -/

/-- C25: what the encrypter's constructor accepts. -/
theorem C25_ocfb_new_encrypter_iff (randData : Bytes) (resync : Bool) :
    (∃ r, ocfbNewEnc c randData resync = .ok r) ↔ (randData.length = c.bs ∧ 2 ≤ c.bs) := by
  constructor
  · rintro ⟨⟨x, p⟩, h⟩
    obtain ⟨h1, h2, _⟩ := ocfbNewEnc_ok c h
    exact ⟨h1, h2⟩
  · rintro ⟨h1, h2⟩
    unfold ocfbNewEnc
    rw [if_neg (by omega), if_neg (by omega)]
    simp only
    split <;> exact ⟨_, rfl⟩

/-- C25 without resynchronisation: the prefix followed by all the ciphertext is CFB with a zero IV of the random
block, its last two bytes again, and the plaintext. -/
theorem C25_ocfb_encrypt_spec (randData pfx : Bytes) (x : Ocfb) (hnew : ocfbNewEnc c randData false = .ok (x, pfx))
    (m : Mem) (dst src : Slice) (h2 : src.len ≤ dst.len) (h3 : NoPartialOverlap dst src) :
    ∃ x' o, ocfbXor c false x m dst src = .ok (m.write dst.ptr o, x') ∧ o.length = src.len ∧
      pfx.length = c.bs + 2 ∧ pfx ++ o = (Spec.cfb c.E (List.replicate c.bs 0) (chunks c.bs
        (randData ++ randData.drop (c.bs - 2) ++ m.read src.ptr src.len))).flatten := by
  obtain ⟨h1, h2', e1, e2, hR⟩ := ocfbNewEnc_ok c hnew
  obtain ⟨x', e, _, hlen⟩ := (ocfb_ok c false).call hR m dst src h2 h3
  refine ⟨x', _, e, hlen, e2, ?_⟩
  rw [← cfbF_spec c _ (by simp), bRun_append _ _ (randData ++ randData.drop (c.bs - 2)), e1]
  rfl

/-- C25 with resynchronisation: the prefix is CFB with a zero IV of the random block and its last two bytes; the
message is CFB with IV = the last `bs` bytes of the prefix. -/
theorem C25_ocfb_encrypt_resync_spec (randData pfx : Bytes) (x : Ocfb)
    (hnew : ocfbNewEnc c randData true = .ok (x, pfx))
    (m : Mem) (dst src : Slice) (h2 : src.len ≤ dst.len) (h3 : NoPartialOverlap dst src) :
    pfx = (Spec.cfb c.E (List.replicate c.bs 0) (chunks c.bs (randData ++ randData.drop (c.bs - 2)))).flatten ∧
    ∃ x', ocfbXor c false x m dst src = .ok (m.write dst.ptr
      (Spec.cfb c.E (pfx.drop 2) (chunks c.bs (m.read src.ptr src.len))).flatten, x') := by
  obtain ⟨h1, h2', e1, e2, hR⟩ := ocfbNewEnc_ok c hnew
  obtain ⟨x', e, _⟩ := (ocfb_ok c false).call hR m dst src h2 h3
  refine ⟨by rw [← cfbF_spec c _ (by simp), e1], x', ?_⟩
  rw [ocfbXor, e]
  simp only [if_true]
  rw [cfbF_spec c _ (by rw [List.length_drop, e2]; omega)]

example : ∃ x pfx, ocfbNewEnc toy2 [1, 2] false = .ok (x, pfx) ∧ pfx = [0, 3, 5, 3] := ⟨_, _, rfl, by decide⟩
example : ∃ x pfx, ocfbNewEnc (toyCipher 3 (by decide)) [1, 2, 3] true = .ok (x, pfx) ∧ pfx = [0, 3, 2, 1, 7] :=
  ⟨_, _, rfl, by decide⟩

/-- C25: the decrypter's constructor accepts exactly the prefixes of `bs + 2` bytes whose CFB decryption ends by
repeating its previous two bytes.  On success the caller's prefix slice has been overwritten with that
decryption. -/
theorem C25_ocfb_new_decrypter_iff (pfx new : Bytes) (resync : Bool) (h2 : 2 ≤ c.bs)
    (plain : Bytes) (hp : plain = (Spec.cfbDec c.E (List.replicate c.bs 0) (chunks c.bs pfx)).flatten) :
    (∃ x, ocfbNewDec c pfx resync = .ok (x, new)) ↔
      (pfx.length = c.bs + 2 ∧ (plain.take c.bs).drop (c.bs - 2) = plain.drop c.bs ∧ new = plain) := by
  have hpl : plain = ocfbPlain c pfx := by rw [hp, ← cfbF_dec_spec c _ (by simp)]; rfl
  subst hpl
  constructor
  · rintro ⟨x, h⟩
    have h1 : pfx.length = c.bs + 2 := by
      unfold ocfbNewDec at h
      split at h
      · cases h
      · rename_i hl; simpa using hl
    obtain ⟨a, b⟩ := ocfbNewDec_eq c pfx resync h1 h2
    by_cases e : ((ocfbPlain c pfx).take c.bs).drop (c.bs - 2) = (ocfbPlain c pfx).drop c.bs
    · obtain ⟨y, hy, _⟩ := b e
      rw [h] at hy
      exact ⟨h1, e, (Prod.mk.inj (Res.ok.inj hy)).2⟩
    · rw [a e] at h; cases h
  · rintro ⟨h1, e, rfl⟩
    obtain ⟨y, hy, _⟩ := (ocfbNewDec_eq c pfx resync h1 h2).2 e
    exact ⟨y, hy⟩

/-- C25: the prefix an encrypter produced is accepted, decrypts to the random block plus its last two bytes, and
the decrypter then undoes any history of the encrypter. -/
theorem C25_ocfb_roundtrip (randData pfx : Bytes) (resync : Bool) (x : Ocfb)
    (hnew : ocfbNewEnc c randData resync = .ok (x, pfx)) :
    ∃ y, ocfbNewDec c pfx resync = .ok (y, randData ++ randData.drop (c.bs - 2)) ∧
      ∀ {A B : Slice → Slice → Prop} {ins outs ins' outs' : List Bytes} {x1 y1 : Ocfb},
        Calls A (ocfbXor c false) x ins outs x1 → Calls B (ocfbXor c true) y ins' outs' y1 →
        ins'.flatten = outs.flatten → outs'.flatten = ins.flatten := by
  obtain ⟨h1, h2, e1, e2, hR⟩ := ocfbNewEnc_ok c hnew
  obtain ⟨r1, r2⟩ := cfb_byte_roundtrip c (randData ++ randData.drop (c.bs - 2)) (zeroIV c, [])
  rw [← e1] at r1 r2
  have hpl : ocfbPlain c pfx = randData ++ randData.drop (c.bs - 2) := r1
  obtain ⟨y, hy, hRy⟩ := (ocfbNewDec_eq c pfx resync e2 h2).2 (by
    rw [hpl, List.take_left' h1, List.drop_left' h1])
  rw [hpl] at hy
  rw [← r2] at hRy
  refine ⟨y, hy, ?_⟩
  intro A B ins outs ins' outs' x1 y1 he hd h
  exact (ocfb_ok c false).undo (ocfb_ok c true) (bRun_append _) (bRun_append _)
    (fun a => (cfb_byte_roundtrip c a _).1) hR hRy he hd h

example : ∃ x pfx outs x1, ocfbNewEnc toy2 [1, 2] false = .ok (x, pfx) ∧
    Calls (fun _ _ => True) (ocfbXor toy2 false) x [[1], [2, 3, 4]] outs x1 := by
  have h : ocfbNewEnc toy2 [1, 2] false = .ok (⟨[5, 3], 2⟩, [0, 3, 5, 3]) := by decide
  obtain ⟨_, _, _, _, hR⟩ := ocfbNewEnc_ok toy2 h
  obtain ⟨o, s, hc⟩ := (ocfb_ok toy2 false).calls_exist [[1], [2, 3, 4]] _ _ hR
  exact ⟨_, _, o, s, h, hc⟩

/-- C25: the caller's ciphertext prefix is destroyed by a successful `NewOCFBDecrypter`. -/
theorem C25_ocfb_new_decrypter_overwrites_prefix : ∃ (c : BlockCipher) (pfx new : Bytes) (x : Ocfb),
    ocfbNewDec c pfx true = .ok (x, new) ∧ new ≠ pfx :=
  ⟨toy2, [0, 3, 5, 3], [1, 2, 1, 2], ⟨[4, 6], 0⟩, by decide, by decide⟩

/-- C29 for OpenPGP CFB, encryption and decryption. -/
theorem C29_ocfb_pieces (dec : Bool) (x : Ocfb) (pfx new : Bytes) (resync : Bool)
    (hnew : (∃ r, ocfbNewEnc c r resync = .ok (x, pfx)) ∨ (2 ≤ c.bs ∧ ocfbNewDec c pfx resync = .ok (x, new)))
    {A B : Slice → Slice → Prop} {ins outs ins' outs' : List Bytes} {x1 x2 : Ocfb}
    (h1 : Calls A (ocfbXor c dec) x ins outs x1) (h2 : Calls B (ocfbXor c dec) x ins' outs' x2)
    (h : ins.flatten = ins'.flatten) : outs.flatten = outs'.flatten := by
  have hR : ∃ t, OcfbR c x t := by
    rcases hnew with ⟨r, hr⟩ | ⟨hb, hr⟩
    · exact ⟨_, (ocfbNewEnc_ok c hr).2.2.2.2⟩
    · obtain ⟨a, b, d⟩ := (C25_ocfb_new_decrypter_iff c pfx new resync hb _ rfl).1 ⟨x, hr⟩
      rw [← cfbF_dec_spec c _ (by simp)] at b
      obtain ⟨y, hy, hRy⟩ := (ocfbNewDec_eq c pfx resync a hb).2 b
      rw [hr] at hy
      obtain ⟨rfl, _⟩ := Prod.mk.inj (Res.ok.inj hy)
      exact ⟨_, hRy⟩
  obtain ⟨t, hR⟩ := hR
  exact (ocfb_ok c dec).pieces (fun _ => True) (fun t a b _ => bRun_append _ t a b) hR h1 (fun _ _ => trivial)
    h2 (fun _ _ => trivial) h

end Verif.Mode
