import Verif.Cipher.Common2
/-
Model of cipher/lion, over any hash and any stream cipher.
-/
namespace Verif.Cipher.Lion

/-- The hash: its size, and the digest as a function of what was written since Reset. -/
structure Hash where
  size : Nat
  sum : Bytes → Bytes
  len : ∀ b, (sum b).length = size

/-- The constructor of stream ciphers: an error, or the key stream of a new cipher. -/
abbrev Streamer := Bytes → Option (Nat → Byte)

/-- XORKeyStream on a new stream cipher with key stream `ks`, as the documentation of cipher.Stream has it: it panics if `dst` is shorter than `src` or they
overlap partly. -/
def xorKeyStream (ks : Nat → Byte) (m : Mem) (dst src : Slice) : Res Mem :=
  if dst.len < src.len then .panic
  else if inexactOverlap { dst with len := src.len } src then .panic
  else .ok (m.write dst.ptr (xorb (m.read src.ptr src.len) ((List.range src.len).map ks)))

/-- `s[n:]`. -/
def from_ (s : Slice) (n : Nat) : Slice := ⟨s.ptr + n, s.len - n, s.cap - n⟩

/-- `encrypt` and, with the keys exchanged, `decrypt` (cipher/lion/lion.go:79-127). -/
def crypt (H : Hash) (S : Streamer) (ka kb : Bytes) (m : Mem) (dst src : Slice) : Res Mem :=
  match S (xorb (m.read src.ptr H.size) ka) with
  | none => .panic
  | some ks => (xorKeyStream ks m (from_ dst H.size) (from_ src H.size)).bind fun m =>
    let buffer := H.sum (m.read (dst.ptr + H.size) (dst.len - H.size))
    let m := m.write dst.ptr (xorb (m.read src.ptr H.size) buffer)
    match S (xorb (m.read dst.ptr H.size) kb) with
    | none => .panic
    | some ks => xorKeyStream ks m (from_ dst H.size) (from_ dst H.size)

/-- Encrypt and Decrypt (cipher/lion/lion.go:43-77). -/
def method (H : Hash) (S : Streamer) (bs : Nat) (ka kb : Bytes) (m : Mem) (dst src : Slice) : Res Mem :=
  if src.len < bs then .panic
  else if dst.len < bs then .panic
  else if inexactOverlap { dst with len := bs } { src with len := bs } then .panic
  else crypt H S ka kb m dst src

/-- `copy` into a new array of `n` bytes (cipher/lion/lion.go:132-136). -/
def fit (n : Nat) (k : Bytes) : Bytes := (k ++ List.replicate n 0).take n
/-- The two keys (cipher/lion/lion.go:129-137). -/
def key1 (H : Hash) (key : Bytes) : Bytes := fit H.size (key.take (key.length / 2))
def key2 (H : Hash) (key : Bytes) : Bytes := fit H.size (key.drop (key.length / 2))

/-- `NewCipher` (cipher/lion/lion.go:25-41). The check of the block size cannot fail, it follows from the maximum. -/
def newCipher (H : Hash) (S : Streamer) (bs : Nat) (key : Bytes) : Res Obj :=
  let bs := max (2 * H.size + 1) bs
  if 2 * H.size + 1 > bs then .err
  else .ok ⟨bs, method H S bs (key1 H key) (key2 H key), method H S bs (key2 H key) (key1 H key)⟩

/-! Specification -/

/-- `r` XOR the beginning of a key stream. -/
def xs (ks : Nat → Byte) (r : Bytes) : Bytes := xorb r ((List.range r.length).map ks)

/-- The block cipher LION with keys `ka` and `kb`: a block is a left part of the size `hs` of the hash and a right part; `str k` is the key stream of key `k`. -/
def spec (hs : Nat) (sum : Bytes → Bytes) (str : Bytes → Nat → Byte) (ka kb b : Bytes) : Bytes :=
  let l := b.take hs
  let r := xs (str (xorb l ka)) (b.drop hs)
  let l := xorb l (sum r)
  l ++ xs (str (xorb l kb)) r

/-- What the code computes if `extra` is what follows the block in `dst`: the bytes are hashed with the right part, and encrypted with it the second time. -/
def specX (hs : Nat) (sum : Bytes → Bytes) (str : Bytes → Nat → Byte) (ka kb extra b : Bytes) : Bytes :=
  let l := b.take hs
  let r := xs (str (xorb l ka)) (b.drop hs) ++ extra
  let l := xorb l (sum r)
  l ++ xs (str (xorb l kb)) r

/-! Proofs -/

@[simp] theorem xs_length (ks : Nat → Byte) (r : Bytes) : (xs ks r).length = r.length := by simp [xs]
theorem xs_xs (ks : Nat → Byte) (r : Bytes) : xs ks (xs ks r) = r := by
  unfold xs
  have : (xorb r ((List.range r.length).map ks)).length = r.length := by simp
  rw [this]
  exact xorb_xorb_cancel_right _ _ (by simp)

theorem specX_nil (hs : Nat) (sum : Bytes → Bytes) (str : Bytes → Nat → Byte) (ka kb b : Bytes) : specX hs sum str ka kb [] b = spec hs sum str ka kb b := by
  unfold specX spec
  simp only [List.append_nil]

theorem spec_length (hs : Nat) (sum : Bytes → Bytes) (hl : ∀ b, (sum b).length = hs) (str : Bytes → Nat → Byte) (ka kb b : Bytes) (h : hs ≤ b.length) :
    (spec hs sum str ka kb b).length = b.length := by
  unfold spec
  simp [hl]
  omega

theorem spec_inv (hs : Nat) (sum : Bytes → Bytes) (hl : ∀ b, (sum b).length = hs) (str : Bytes → Nat → Byte) (ka kb b : Bytes)
    (h : hs ≤ b.length) : spec hs sum str kb ka (spec hs sum str ka kb b) = b := by
  have hb : b = b.take hs ++ b.drop hs := (List.take_append_drop _ _).symm
  generalize hL : b.take hs = L at hb
  generalize b.drop hs = R at hb
  have lL : L.length = hs := by rw [← hL, List.length_take]; omega
  subst hb
  unfold spec
  simp only
  rw [List.take_left' lL, List.drop_left' lL]
  generalize hR1 : xs (str (xorb L ka)) R = R1
  have lL1 : (xorb L (sum R1)).length = hs := by simp [hl, lL]
  generalize hL1 : xorb L (sum R1) = L1 at lL1
  rw [List.take_left' lL1, List.drop_left' lL1, xs_xs]
  have a2 : xorb L1 (sum R1) = L := by
    rw [← hL1]
    exact xorb_xorb_cancel_right _ _ (by simp [hl, lL])
  rw [a2, ← hR1, xs_xs]

theorem apart {d s n c c' : Nat} (h : inexactOverlap ⟨d, n, c⟩ ⟨s, n, c'⟩ = false) : d = s ∨ d + n ≤ s ∨ s + n ≤ d := by
  unfold inexactOverlap anyOverlap at h
  by_cases hn : n = 0
  · omega
  · by_cases he : d = s
    · exact .inl he
    · simp [hn, he] at h
      omega

theorem not_overlap {d s n c c' : Nat} (h : d = s ∨ d + n ≤ s ∨ s + n ≤ d) : inexactOverlap ⟨d, n, c⟩ ⟨s, n, c'⟩ = false := by
  unfold inexactOverlap anyOverlap
  by_cases hn : n = 0
  · simp [hn]
  · by_cases he : d = s
    · simp [he]
    · simp [hn, he]
      omega

theorem xks_eq (ks : Nat → Byte) (m : Mem) (dst src : Slice) (h : src.len ≤ dst.len) (ha : dst.ptr = src.ptr ∨ dst.ptr + src.len ≤ src.ptr ∨ src.ptr + src.len ≤ dst.ptr) :
    xorKeyStream ks m dst src = .ok (m.write dst.ptr (xs ks (m.read src.ptr src.len))) := by
  unfold xorKeyStream xs
  rw [if_neg (by omega), if_neg (by
    have := not_overlap (d := dst.ptr) (s := src.ptr) (n := src.len) (c := dst.cap) (c' := src.cap) ha
    rw [this]; simp), Mem.read_length]

/-- What `crypt` does, when all streams exist, to a destination that is not shorter than the source. -/
theorem crypt_eq (H : Hash) (S : Streamer) (str : Bytes → Nat → Byte) (hS : ∀ k, k.length = H.size → S k = some (str k)) (ka kb : Bytes) (hka : ka.length = H.size)
    (hkb : kb.length = H.size) (m : Mem) (dst src : Slice) (h1 : H.size ≤ src.len) (h2 : src.len ≤ dst.len)
    (ha : dst.ptr = src.ptr ∨ dst.ptr + dst.len ≤ src.ptr ∨ src.ptr + src.len ≤ dst.ptr) :
    crypt H S ka kb m dst src =
      .ok (m.write dst.ptr (specX H.size H.sum str ka kb (m.read (dst.ptr + src.len) (dst.len - src.len)) (m.read src.ptr src.len))) := by
  unfold crypt specX
  rw [hS _ (by simp [hka])]
  simp only
  rw [Mem.read_take, Mem.read_drop, Nat.min_eq_left h1]
  rw [xks_eq _ m (from_ dst H.size) (from_ src H.size) (by simp only [from_]; omega) (by simp only [from_]; omega)]
  simp only [from_, Res.bind]
  generalize hr : xs (str (xorb (m.read src.ptr H.size) ka)) (m.read (src.ptr + H.size) (src.len - H.size)) = r
  have lr : r.length = src.len - H.size := by rw [← hr]; simp
  have e1 : (m.write (dst.ptr + H.size) r).read (dst.ptr + H.size) (dst.len - H.size) = r ++ m.read (dst.ptr + src.len) (dst.len - src.len) := by
    rw [show dst.len - H.size = (src.len - H.size) + (dst.len - src.len) from by omega, Mem.read_append, Mem.read_write_self' _ _ _ _ lr,
      Mem.read_write_disjoint _ _ _ _ _ (by omega), show dst.ptr + H.size + (src.len - H.size) = dst.ptr + src.len from by omega]
  have e2 : (m.write (dst.ptr + H.size) r).read src.ptr H.size = m.read src.ptr H.size := by
    by_cases hz : r.length = 0
    · rw [List.length_eq_zero_iff.mp hz, Mem.write_nil]
    · exact Mem.read_write_disjoint _ _ _ _ _ (by omega)
  rw [e1, e2]
  generalize hR : r ++ m.read (dst.ptr + src.len) (dst.len - src.len) = R at e1
  have lR : R.length = dst.len - H.size := by rw [← hR]; simp; omega
  have ll : (xorb (m.read src.ptr H.size) (H.sum R)).length = H.size := by simp [H.len]
  generalize xorb (m.read src.ptr H.size) (H.sum R) = l at ll
  rw [Mem.read_write_self' _ _ _ _ ll, hS _ (by simp [ll, hkb])]
  simp only
  rw [xks_eq _ _ _ _ (Nat.le_refl _) (.inl rfl)]
  simp only
  rw [Mem.read_write_disjoint _ _ _ _ _ (by omega), e1]
  congr 1
  generalize hx : xs (str (xorb l kb)) R = x
  have lx : x.length = dst.len - H.size := by rw [← hx]; simp [lR]
  funext a
  rw [Mem.write_append, ll]
  by_cases c1 : dst.ptr + H.size ≤ a ∧ a < dst.ptr + H.size + (dst.len - H.size)
  · obtain ⟨i, rfl⟩ : ∃ i, a = dst.ptr + H.size + i := ⟨a - (dst.ptr + H.size), by omega⟩
    rw [Mem.write_at _ _ _ _ (by omega), Mem.write_at _ _ _ _ (by omega)]
  · have hout : ∀ (q : Mem) (z : Bytes), z.length ≤ dst.len - H.size → q.write (dst.ptr + H.size) z a = q a := by
      intro q z hz
      by_cases c2 : a < dst.ptr + H.size
      · exact Mem.write_of_lt _ _ _ _ c2
      · exact Mem.write_of_ge _ _ _ _ (by omega)
    rw [hout _ _ (by omega), hout _ _ (by omega)]
    by_cases c3 : dst.ptr ≤ a ∧ a < dst.ptr + H.size
    · obtain ⟨i, rfl⟩ : ∃ i, a = dst.ptr + i := ⟨a - dst.ptr, by omega⟩
      rw [Mem.write_at _ _ _ _ (by omega), Mem.write_at _ _ _ _ (by omega)]
    · have h4 : ∀ (q : Mem) (z : Bytes), z.length = H.size → q.write dst.ptr z a = q a := by
        intro q z hz
        by_cases c2 : a < dst.ptr
        · exact Mem.write_of_lt _ _ _ _ c2
        · exact Mem.write_of_ge _ _ _ _ (by omega)
      rw [h4 _ _ ll, h4 _ _ ll, hout _ _ (by omega)]

theorem fit_length (n : Nat) (k : Bytes) : (fit n k).length = n := by simp [fit]

end Verif.Cipher.Lion
