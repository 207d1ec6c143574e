import Verif.Cipher.Skipjack
import Verif.Cipher.Whirlx
import Verif.Cipher.Cascade
import Verif.Cipher.Lion
import Verif.Cipher.TwoDes
/-
C159, C160, C162: ciphers made of other ciphers.
-/
namespace Verif.Cipher

/-- C159: the cascade of any two block ciphers is a block cipher. Its blocks have the least common multiple of the two sizes; to encrypt is to encrypt all blocks with
the first cipher, then all blocks of the result with the second; decryption undoes it. -/
theorem C159_cascade (c1 c2 : Obj) (E1 D1 E2 D2 : Bytes → Bytes) (_p1 : 0 < c1.bs) (_p2 : 0 < c2.bs) (i1 : IsBlock c1.bs c1.enc c1.dec E1 D1)
    (i2 : IsBlock c2.bs c2.enc c2.dec E2 D2) : ∃ c, Cascade.newCipher c1 c2 = .ok c ∧ c.bs = Nat.lcm c1.bs c2.bs ∧
      IsBlock c.bs c.enc c.dec (fun b => Cascade.ecb E2 c2.bs (c.bs / c2.bs) (Cascade.ecb E1 c1.bs (c.bs / c1.bs) b))
        (fun b => Cascade.ecb D1 c1.bs (c.bs / c1.bs) (Cascade.ecb D2 c2.bs (c.bs / c2.bs) b)) :=
  Cascade.isBlock c1 c2 E1 D1 E2 D2 i1 i2

/-- A cascade of SKIPJACK and WhirlX. -/
def skipWhirl (key : Bytes) : Res Obj := do
  let c1 ← Skipjack.newCipher (key.take 10)
  let c2 ← Whirlx.newCipher (key.drop 10)
  Cascade.newCipher c1 c2
/-- The block has 16 bytes: two blocks of SKIPJACK, then one of WhirlX. -/
example : kat skipWhirl (hx 10 0x00998877665544332211 ++ List.replicate 16 7) (hx 8 0x33221100ddccbbaa ++ hx 8 0x33221100ddccbbaa) =
    kat Whirlx.newCipher (List.replicate 16 7) (hx 8 0x2587cae27a12d300 ++ hx 8 0x2587cae27a12d300) := by decide +kernel

/-- C160: LION over any hash and any stream cipher that takes keys of the size of the hash, on slices of just one block. Missing: longer slices, see below. -/
theorem C160_lion_partial (H : Lion.Hash) (S : Lion.Streamer) (str : Bytes → Nat → Byte) (hS : ∀ k, k.length = H.size → S k = some (str k)) (bs : Nat) (key : Bytes) :
    ∃ c E D, Lion.newCipher H S bs key = .ok c ∧ c.bs = max (2 * H.size + 1) bs ∧ BlockFn c.bs E D ∧
      E = Lion.spec H.size H.sum str (Lion.key1 H key) (Lion.key2 H key) ∧ D = Lion.spec H.size H.sum str (Lion.key2 H key) (Lion.key1 H key) ∧
      ∀ m dst src, src.len = c.bs → dst.len = c.bs →
        (c.enc m dst src = if inexactOverlap dst src then .panic else .ok (m.write dst.ptr (E (m.read src.ptr c.bs)))) ∧
        (c.dec m dst src = if inexactOverlap dst src then .panic else .ok (m.write dst.ptr (D (m.read src.ptr c.bs)))) := by
  have l1 : (Lion.key1 H key).length = H.size := Lion.fit_length _ _
  have l2 : (Lion.key2 H key).length = H.size := Lion.fit_length _ _
  have hb : H.size ≤ max (2 * H.size + 1) bs := by omega
  refine ⟨_, _, _, if_neg (by omega), rfl, ?_, rfl, rfl, ?_⟩
  · constructor
    · intro b h; rw [Lion.spec_length _ _ H.len _ _ _ _ (by rw [h]; exact hb), h]
    · intro b h; rw [Lion.spec_length _ _ H.len _ _ _ _ (by rw [h]; exact hb), h]
    · intro b h; exact Lion.spec_inv _ _ H.len _ _ _ _ (by rw [h]; exact hb)
    · intro b h; exact Lion.spec_inv _ _ H.len _ _ _ _ (by rw [h]; exact hb)
  · intro m dst src h1 h2
    obtain ⟨dp, dl, dc⟩ := dst
    obtain ⟨sp, sl, sc⟩ := src
    simp only at h1 h2
    subst h1 h2
    have one : ∀ ka kb : Bytes, ka.length = H.size → kb.length = H.size →
        Lion.method H S (max (2 * H.size + 1) bs) ka kb m ⟨dp, max (2 * H.size + 1) bs, dc⟩ ⟨sp, max (2 * H.size + 1) bs, sc⟩ =
          if inexactOverlap ⟨dp, max (2 * H.size + 1) bs, dc⟩ ⟨sp, max (2 * H.size + 1) bs, sc⟩ then .panic
          else .ok (m.write dp (Lion.spec H.size H.sum str ka kb (m.read sp (max (2 * H.size + 1) bs)))) := by
      intro ka kb ha hkb
      unfold Lion.method
      rw [if_neg (by simp), if_neg (by simp)]
      simp only
      split
      · rfl
      · rename_i hno
        have := Lion.apart (by simpa using hno)
        rw [Lion.crypt_eq H S str hS ka kb ha hkb m ⟨dp, max (2 * H.size + 1) bs, dc⟩ ⟨sp, max (2 * H.size + 1) bs, sc⟩ hb (Nat.le_refl _) (by simp only; omega)]
        simp only [Nat.sub_self]
        rw [show m.read (dp + max (2 * H.size + 1) bs) 0 = [] from rfl, Lion.specX_nil]
    exact ⟨one _ _ l1 l2, one _ _ l2 l1⟩

/-- C160: what the methods do, exactly, if the destination is longer than the source, and not partly over it: all of the destination takes part. -/
theorem C160_lion_long (H : Lion.Hash) (S : Lion.Streamer) (str : Bytes → Nat → Byte) (hS : ∀ k, k.length = H.size → S k = some (str k)) (bs : Nat) (key : Bytes)
    (c : Obj) (hc : Lion.newCipher H S bs key = .ok c) (m : Mem) (dst src : Slice) (h1 : c.bs ≤ src.len) (h2 : src.len ≤ dst.len)
    (ha : dst.ptr = src.ptr ∨ dst.ptr + dst.len ≤ src.ptr ∨ src.ptr + src.len ≤ dst.ptr) :
    c.enc m dst src = .ok (m.write dst.ptr (Lion.specX H.size H.sum str (Lion.key1 H key) (Lion.key2 H key)
      (m.read (dst.ptr + src.len) (dst.len - src.len)) (m.read src.ptr src.len))) ∧
    c.dec m dst src = .ok (m.write dst.ptr (Lion.specX H.size H.sum str (Lion.key2 H key) (Lion.key1 H key)
      (m.read (dst.ptr + src.len) (dst.len - src.len)) (m.read src.ptr src.len))) := by
  unfold Lion.newCipher at hc
  simp only at hc
  rw [if_neg (by omega)] at hc
  obtain rfl := Res.ok.inj hc
  simp only at h1 ⊢
  have l1 : (Lion.key1 H key).length = H.size := Lion.fit_length _ _
  have l2 : (Lion.key2 H key).length = H.size := Lion.fit_length _ _
  have hov : inexactOverlap { dst with len := max (2 * H.size + 1) bs } { src with len := max (2 * H.size + 1) bs } = false := Lion.not_overlap (by omega)
  constructor
  · unfold Lion.method
    rw [if_neg (by omega), if_neg (by omega), if_neg (by rw [hov]; simp), Lion.crypt_eq H S str hS _ _ l1 l2 m dst src (by omega) h2 ha]
  · unfold Lion.method
    rw [if_neg (by omega), if_neg (by omega), if_neg (by rw [hov]; simp), Lion.crypt_eq H S str hS _ _ l2 l1 m dst src (by omega) h2 ha]

/-- A hash of one byte and a stream cipher, for examples. -/
def toyHash : Lion.Hash := ⟨1, fun b => [b.foldl (fun a x => 3 * a + x) 1], fun _ => rfl⟩
def toyStream (k : Bytes) (i : Nat) : Byte := 7 * k.headD 0 + BitVec.ofNat 8 i
/-- Encrypt the bytes `pt` into a slice that holds `old` before; what the slice holds then. -/
def lionInto (enc : Bool) (key pt old : Bytes) : Res Bytes :=
  match Lion.newCipher toyHash (fun k => some (toyStream k)) 3 key with
  | .ok c =>
    match (if enc then c.enc else c.dec) ((Mem.write (fun _ => 0) 0 pt).write 100 old) ⟨100, old.length, old.length⟩ ⟨0, pt.length, pt.length⟩ with
    | .ok m => .ok (m.read 100 old.length)
    | .err => .err
    | .panic => .panic
    | .hang => .hang
  | .err => .err
  | .panic => .panic
  | .hang => .hang

/-- C160, fails: with a destination that is longer than the block (as cipher.Block allows) the block that comes out depends on what the destination held behind it, the
bytes behind it are changed, and decryption of the block does not give the plaintext back. -/
theorem C160_lion_long_dst_violated :
    (∃ x y, lionInto true [1, 2] [1, 2, 3] [0, 0, 0, 0] = .ok x ∧ lionInto true [1, 2] [1, 2, 3] [0, 0, 0, 9] = .ok y ∧ x.take 3 ≠ y.take 3 ∧ x.drop 3 ≠ [0] ∧
      lionInto false [1, 2] (x.take 3) [0, 0, 0] ≠ .ok [1, 2, 3]) ∧
    (∃ z, lionInto true [1, 2] [1, 2, 3] [0, 0, 0] = .ok z ∧ lionInto false [1, 2] z [0, 0, 0] = .ok [1, 2, 3]) := by
  refine ⟨⟨[0x32, 0x52, 0x53, 0x52], [0x3d, 0xbb, 0xb8, 0xb2], ?_⟩, ⟨[0x10, 0x7c, 0x7d], ?_⟩⟩ <;> decide +kernel

/-- C160, fails: keys are cut in half and filled up with zeros or cut to the size of the hash, without a check of their length. The key of one byte `a` is the same as `[0, a]`. -/
theorem C160_lion_short_key_violated (H : Lion.Hash) (hs : 1 ≤ H.size) (S : Lion.Streamer) (bs : Nat) (a : Byte) : Lion.newCipher H S bs [a] = Lion.newCipher H S bs [0, a] := by
  have e1 : Lion.key1 H [a] = Lion.key1 H [0, a] := by
    obtain ⟨n, hn⟩ : ∃ n, H.size = n + 1 := ⟨H.size - 1, by omega⟩
    unfold Lion.key1 Lion.fit
    simp [hn, List.replicate_succ]
    rw [← List.replicate_succ, List.take_replicate, Nat.min_eq_left (by omega)]
  have e2 : Lion.key2 H [a] = Lion.key2 H [0, a] := by simp [Lion.key2]
  unfold Lion.newCipher
  rw [e1, e2]
/-- C160, fails: the same for long keys, of which parts are not used. -/
theorem C160_lion_long_key_violated (H : Lion.Hash) (S : Lion.Streamer) (bs : Nat) (k1 k2 t t' : Bytes) (h1 : k1.length = H.size) (h2 : k2.length = H.size) (ht : t.length = t'.length) :
    Lion.newCipher H S bs (k1 ++ t ++ (k2 ++ t')) = Lion.newCipher H S bs (k1 ++ k2) := by
  have hf : ∀ k r : Bytes, k.length = H.size → Lion.fit H.size (k ++ r) = k := by
    intro k r h
    unfold Lion.fit
    rw [List.append_assoc, List.take_left' h]
  have e1 : Lion.key1 H (k1 ++ t ++ (k2 ++ t')) = k1 := by
    unfold Lion.key1
    rw [List.take_left' (by simp; omega), hf _ _ h1]
  have e2 : Lion.key2 H (k1 ++ t ++ (k2 ++ t')) = k2 := by
    unfold Lion.key2
    rw [List.drop_left' (by simp; omega), hf _ _ h2]
  have e3 : Lion.key1 H (k1 ++ k2) = k1 := by
    unfold Lion.key1
    rw [List.take_left' (by simp; omega)]
    simpa using hf k1 [] h1
  have e4 : Lion.key2 H (k1 ++ k2) = k2 := by
    unfold Lion.key2
    rw [List.drop_left' (by simp; omega)]
    simpa using hf k2 [] h2
  unfold Lion.newCipher
  rw [e1, e2, e3, e4]
example : lionInto true [1, 77, 2, 88] [1, 2, 3] [0, 0, 0] = lionInto true [1, 2] [1, 2, 3] [0, 0, 0] ∧
    lionInto true [1, 3] [1, 2, 3] [0, 0, 0] ≠ lionInto true [1, 2] [1, 2, 3] [0, 0, 0] := by decide +kernel

/-- C162: `NewTwoDESCipher` takes keys of 16 bytes. The cipher is the block cipher triple DES with the first half of the key for the third key. Of the memory that
existed before the call, at most the spare capacity behind the key is changed, and nothing at all if that has less than 8 bytes. -/
theorem C162_two_des_partial (slack : Nat → Nat) (T : Bytes → Res Obj) (hT : Implements T (fun n => n = 24) 8) (h : Heap) (key : Slice) (hv : key.Valid h) :
    (key.len ≠ 16 → TwoDes.newCipher slack T h key = .err) ∧
    (key.len = 16 → ∃ h' c t E D, TwoDes.newCipher slack T h key = .ok (h', c) ∧ c.bs = 8 ∧ T (h.bytes key ++ (h.bytes key).take 8) = .ok t ∧
      IsBlock 8 t.enc t.dec E D ∧ IsBlock 8 c.enc c.dec E D ∧
      FrameExcept h h' (key.ptr + 16) (key.ptr + key.cap) ∧ (key.cap < 24 → FrameExcept h h' 0 0)) := by
  refine ⟨fun hl => if_pos hl, fun hl => ?_⟩
  have sp := appendM_spec slack h key ((h.bytes key).take 8) hv
  simp only at sp
  obtain ⟨_, s2, _, s4, _⟩ := sp
  have lk : (h.bytes key).length = 16 := by rw [Heap.bytes, Mem.read_length, hl]
  obtain ⟨t, et, eb, E, D, hb⟩ := (hT (h.bytes key ++ (h.bytes key).take 8)).1 (by simp [lk])
  refine ⟨_, ⟨8, TwoDes.method t.enc, TwoDes.method t.dec⟩, t, E, D, ?_, rfl, et, hb, ?_, by rw [hl] at s4; exact s4, ?_⟩
  · unfold TwoDes.newCipher
    rw [if_neg (by omega)]
    simp only
    rw [s2, et]
  · have one : ∀ (f : Mem → Slice → Slice → Res Mem) (F : Bytes → Bytes), (∀ m dst src, f m dst src = if src.len < 8 ∨ dst.len < 8 ∨ inexactOverlap { dst with len := 8 } { src with len := 8 } = true then .panic
        else .ok (m.write dst.ptr (F (m.read src.ptr 8)))) → ∀ m dst src, TwoDes.method f m dst src =
        if src.len < 8 ∨ dst.len < 8 ∨ inexactOverlap { dst with len := 8 } { src with len := 8 } = true then Res.panic
        else .ok (m.write dst.ptr (F (m.read src.ptr 8))) := by
      intro f F hf m dst src
      unfold TwoDes.method
      rw [hf]
      by_cases c1 : src.len < 8
      · simp [c1]
      · by_cases c2 : dst.len < 8
        · simp [c2]
        · by_cases c3 : inexactOverlap { dst with len := 8 } { src with len := 8 } = true
          · simp [c1, c2, c3]
          · simp [c1, c2, c3]
    exact ⟨hb.lenE, hb.lenD, hb.DE, hb.ED, one _ E hb.enc_eq, one _ D hb.dec_eq⟩
  · intro hc
    have l8 : ((h.bytes key).take 8).length = 8 := by simp [lk]
    unfold appendM
    rw [if_neg (by omega)]
    simp only
    refine ⟨by simp, fun a ha _ => ?_⟩
    show (h.mem.write h.brk (h.bytes key)).write (h.brk + key.len) (List.take 8 (h.bytes key)) a = h.mem a
    rw [Mem.write_of_lt _ _ _ _ (by omega), Mem.write_of_lt _ _ _ _ ha]

/-- C162, fails: that the arguments are left alone. If the key is a slice of a longer array, the constructor overwrites the 8 bytes behind it with the beginning of the key. -/
theorem C162_two_des_key_tail_violated (slack : Nat → Nat) (T : Bytes → Res Obj) (h h' : Heap) (c : Obj) (key : Slice) (hc : 24 ≤ key.cap)
    (hk : TwoDes.newCipher slack T h key = .ok (h', c)) : h'.mem.read (key.ptr + 16) 8 = h.mem.read key.ptr 8 := by
  unfold TwoDes.newCipher at hk
  by_cases hl : key.len ≠ 16
  · rw [if_pos hl] at hk
    exact absurd hk (by simp)
  · rw [if_neg hl] at hk
    have hl : key.len = 16 := by omega
    have e : (h.bytes key).take 8 = h.mem.read key.ptr 8 := by
      rw [Heap.bytes, hl, Mem.read_take]
      rfl
    simp only at hk
    split at hk
    · have h1 := (Prod.mk.inj (Res.ok.inj hk)).1
      rw [← h1]
      unfold appendM
      rw [if_pos (by simp [e, hl]; omega)]
      simp only
      rw [hl, e]
      exact Mem.read_write_self' _ _ _ _ (by simp)
    all_goals exact absurd hk (by simp)

/-- A constructor that meets the assumption, for an example: a Feistel-free toy, XOR with the sum of the key. -/
def toyTriple (key : Bytes) : Res Obj :=
  if key.length = 24 then .ok ⟨8, guarded 8 (whole 8 fun b => b.map fun x => x ^^^ key.foldl (· + ·) 0), guarded 8 (whole 8 fun b => b.map fun x => x ^^^ key.foldl (· + ·) 0)⟩ else .err
theorem toyTriple_ok : Implements toyTriple (fun n => n = 24) 8 := by
  intro key
  refine ⟨fun hk => ⟨_, if_pos hk, rfl, _, _, isBlock_bytes 8 _ _ (by simp) (by simp) (fun b _ => ?_) (fun b _ => ?_)⟩, fun hk => if_neg hk⟩ <;>
    simp [Function.comp_def]
/-- A key of 16 bytes in an array of 32: the bytes 16 to 23 of the caller's array change. -/
example : ∃ h' c, TwoDes.newCipher (fun _ => 0) toyTriple ⟨fun a => BitVec.ofNat 8 a, 32⟩ ⟨0, 16, 32⟩ = .ok (h', c) ∧ h'.mem 16 = 0 ∧ h'.mem 23 = 7 := by
  refine ⟨_, _, rfl, ?_, ?_⟩ <;> decide +kernel

end Verif.Cipher
