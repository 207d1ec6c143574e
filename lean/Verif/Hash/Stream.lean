import Verif.Hash.Iface
import Verif.Cipher.Common
/-
Buffered block processing as `hash/*` and Go's own hashes do it: an array `x` of one block, a fill count `nx`, and a
loop that completes the block, processes it and goes on.  The specification side is the list of full blocks of the
whole message.
-/
namespace Verif.Hash

/-- `copy(x[off:], p)` for an array `x` and `off ≤ len(x)`. -/
def putAt (x : Bytes) (off : Nat) (p : Bytes) : Bytes := x.take off ++ copyInto (x.drop off) p

/-- The full blocks of a message. -/
def fullBlocks (bs : Nat) (M : Bytes) : List Bytes := (List.range (M.length / bs)).map fun i => (M.drop (i * bs)).take bs

/-- What follows the full blocks. -/
def tailOf (bs : Nat) (M : Bytes) : Bytes := M.drop (M.length / bs * bs)

/-- Chaining value after the full blocks of a message. -/
def absorb {σ : Type} (bs : Nat) (blk : σ → Bytes → σ) (s : σ) (M : Bytes) : σ := (fullBlocks bs M).foldl blk s

/-- State of a buffered digest. -/
structure Buf (σ : Type) where
  s : σ
  x : Bytes
  nx : Nat
  len : BitVec 64

/-- The common loop `for d.nx + plen >= bs { copy(d.x[d.nx:], p); block(d.x); xx := bs - d.nx; p = p[xx:];
d.nx = 0 }`, with the panics of its slice expressions; the first argument bounds the number of iterations. -/
def bufLoop {σ : Type} (bs : Nat) (blk : σ → Bytes → σ) : Nat → Buf σ → Bytes → Res (Buf σ × Bytes)
  | 0, _, _ => .hang
  | f + 1, d, p =>
    if d.nx + p.length ≥ bs then
      if d.x.length < d.nx ∨ bs < d.nx then .panic
      else
        let x := putAt d.x d.nx p
        bufLoop bs blk f { d with s := blk d.s x, x := x, nx := 0 } (p.drop (bs - d.nx))
    else .ok (d, p)

/-- The whole of such a `Write`: the loop, then `copy(d.x[d.nx:], p); d.nx += plen`, and the byte count. -/
def bufWrite {σ : Type} (bs : Nat) (blk : σ → Bytes → σ) (d : Buf σ) (p : Bytes) : Res (Buf σ) :=
  (bufLoop bs blk (p.length + 1) d p).bind fun r =>
    if r.1.x.length < r.1.nx then .panic
    else .ok { r.1 with x := putAt r.1.x r.1.nx r.2, nx := r.1.nx + r.2.length, len := d.len + BitVec.ofNat 64 p.length }

/-! ### list lemmas -/

theorem putAt_length (x : Bytes) (off : Nat) (p : Bytes) (h : off ≤ x.length) : (putAt x off p).length = x.length := by
  simp [putAt, copyInto]; omega

theorem putAt_fit (x : Bytes) (off : Nat) (p : Bytes) (h : off + p.length ≤ x.length) :
    putAt x off p = x.take off ++ p ++ x.drop (off + p.length) := by
  simp only [putAt, copyInto, List.append_assoc, List.length_drop, List.drop_drop]
  rw [List.take_of_length_le (l := p) (by omega)]

theorem putAt_full (x : Bytes) (off : Nat) (p : Bytes) (h : x.length ≤ off + p.length) (h' : off ≤ x.length) :
    putAt x off p = x.take off ++ p.take (x.length - off) := by
  simp only [putAt, copyInto, List.length_drop, List.drop_drop]
  rw [List.drop_of_length_le (by omega), List.append_nil]

theorem tailOf_length (bs : Nat) (M : Bytes) : (tailOf bs M).length = M.length % bs := by
  simp only [tailOf, List.length_drop]
  have := Nat.div_add_mod M.length bs
  rw [Nat.mul_comm] at this; omega

theorem blocks_tail (bs : Nat) (M : Bytes) : M.take (M.length / bs * bs) ++ tailOf bs M = M := List.take_append_drop _ _

theorem fullBlocks_append (bs : Nat) (hb : 0 < bs) (A B : Bytes) (h : A.length % bs = 0) :
    fullBlocks bs (A ++ B) = fullBlocks bs A ++ fullBlocks bs B := by
  obtain ⟨k, hk⟩ : ∃ k, A.length = k * bs := ⟨A.length / bs, by
    have := Nat.div_add_mod A.length bs
    rw [Nat.mul_comm] at this; omega⟩
  simp only [fullBlocks, List.length_append, hk, Nat.mul_div_cancel _ hb]
  rw [show (k * bs + B.length) / bs = k + B.length / bs by rw [Nat.add_comm, Nat.add_mul_div_right _ _ hb, Nat.add_comm],
    List.range_add, List.map_append, List.map_map]
  congr 1
  · apply List.map_congr_left
    intro i hi
    have hi := List.mem_range.1 hi
    have h1 : (i + 1) * bs ≤ k * bs := Nat.mul_le_mul_right _ hi
    rw [Nat.add_mul] at h1
    rw [List.drop_append_of_le_length (by omega), List.take_append_of_le_length (by simp; omega)]
  · apply List.map_congr_left
    intro i _
    simp only [Function.comp]
    rw [Nat.add_mul, ← List.drop_drop, ← hk, List.drop_left]

theorem take_blocks_mod (bs : Nat) (M : Bytes) : (M.take (M.length / bs * bs)).length % bs = 0 := by
  rw [List.length_take, Nat.min_eq_left (Nat.div_mul_le_self _ _)]; exact Nat.mul_mod_left _ _

theorem fullBlocks_short (bs : Nat) (M : Bytes) (h : M.length < bs) : fullBlocks bs M = [] := by
  simp [fullBlocks, Nat.div_eq_of_lt h]

theorem fullBlocks_one (bs : Nat) (hb : 0 < bs) (M : Bytes) (h : M.length = bs) : fullBlocks bs M = [M] := by
  unfold fullBlocks
  rw [h, Nat.div_self hb]
  simp [List.range_succ, List.take_of_length_le (Nat.le_of_eq h)]

theorem fullBlocks_mem (bs : Nat) (M : Bytes) : ∀ b ∈ fullBlocks bs M, b.length = bs := by
  intro b hb
  simp only [fullBlocks, List.mem_map, List.mem_range] at hb
  obtain ⟨i, hi, rfl⟩ := hb
  have h1 : (i + 1) * bs ≤ M.length / bs * bs := Nat.mul_le_mul_right _ hi
  have h2 := Nat.div_mul_le_self M.length bs
  rw [Nat.add_mul] at h1
  simp only [List.length_take, List.length_drop]
  omega

theorem fullBlocks_split (bs : Nat) (hb : 0 < bs) (M q : Bytes) :
    fullBlocks bs (M ++ q) = fullBlocks bs M ++ fullBlocks bs (tailOf bs M ++ q) := by
  conv => lhs; rw [← blocks_tail bs M, List.append_assoc]
  rw [fullBlocks_append bs hb _ _ (take_blocks_mod bs M)]
  congr 1
  conv => rhs; rw [← blocks_tail bs M, fullBlocks_append bs hb _ _ (take_blocks_mod bs M)]
  rw [fullBlocks_short bs (tailOf bs M) (by rw [tailOf_length]; exact Nat.mod_lt _ hb), List.append_nil]

theorem tailOf_short (bs : Nat) (M : Bytes) (h : M.length < bs) : tailOf bs M = M := by
  simp [tailOf, Nat.div_eq_of_lt h]

theorem tailOf_append (bs : Nat) (hb : 0 < bs) (M q : Bytes) : tailOf bs (M ++ q) = tailOf bs (tailOf bs M ++ q) := by
  have hM := blocks_tail bs M
  have h0 := take_blocks_mod bs M
  generalize M.take (M.length / bs * bs) = A at hM h0
  generalize tailOf bs M = T at hM
  subst hM
  obtain ⟨k, hk⟩ : ∃ k, A.length = k * bs := ⟨A.length / bs, by
    have := Nat.div_add_mod A.length bs
    rw [Nat.mul_comm] at this; omega⟩
  simp only [tailOf, List.append_assoc]
  rw [List.length_append, hk, show (k * bs + (T ++ q).length) / bs = k + (T ++ q).length / bs by
    rw [Nat.add_comm, Nat.add_mul_div_right _ _ hb, Nat.add_comm], Nat.add_mul, ← List.drop_drop, ← hk, List.drop_left]

theorem absorb_split {σ : Type} (bs : Nat) (hb : 0 < bs) (blk : σ → Bytes → σ) (s : σ) (M q : Bytes) :
    absorb bs blk s (M ++ q) = absorb bs blk (absorb bs blk s M) (tailOf bs M ++ q) := by
  simp only [absorb, fullBlocks_split bs hb M q, List.foldl_append]

theorem absorb_short {σ : Type} (bs : Nat) (blk : σ → Bytes → σ) (s : σ) (M : Bytes) (h : M.length < bs) :
    absorb bs blk s M = s := by simp [absorb, fullBlocks_short bs M h]

theorem absorb_one {σ : Type} (bs : Nat) (hb : 0 < bs) (blk : σ → Bytes → σ) (s : σ) (M : Bytes) (h : M.length = bs) :
    absorb bs blk s M = blk s M := by simp [absorb, fullBlocks_one bs hb M h]

theorem tailOf_one (bs : Nat) (hb : 0 < bs) (M : Bytes) (h : M.length = bs) : tailOf bs M = [] := by
  simp [tailOf, h, Nat.div_self hb]

/-! ### the invariant -/

/-- The state holds the message `M`: the chaining value has absorbed its full blocks, the buffer its tail. -/
structure Holds {σ : Type} (bs : Nat) (blk : σ → Bytes → σ) (iv : σ) (d : Buf σ) (M : Bytes) : Prop where
  s : d.s = absorb bs blk iv M
  nx : d.nx = M.length % bs
  xl : d.x.length = bs
  x : d.x.take d.nx = tailOf bs M
  len : d.len = BitVec.ofNat 64 M.length

theorem bufLoop_holds {σ : Type} (bs : Nat) (hb : 0 < bs) (blk : σ → Bytes → σ) (iv : σ) :
    ∀ (f : Nat) (d : Buf σ) (M p : Bytes), p.length < f → d.s = absorb bs blk iv M → d.nx = M.length % bs → d.x.length = bs →
      d.x.take d.nx = tailOf bs M →
      ∃ (d' : Buf σ) (M' p' : Bytes), bufLoop bs blk f d p = .ok (d', p') ∧ M' ++ p' = M ++ p ∧ d'.s = absorb bs blk iv M' ∧
        d'.nx = M'.length % bs ∧ d'.x.length = bs ∧ d'.x.take d'.nx = tailOf bs M' ∧ d'.nx + p'.length < bs := by
  intro f
  induction f with
  | zero => intros; omega
  | succ f ih =>
    intro d M p hf hs hn hl hx
    have hlt : d.nx < bs := by rw [hn]; exact Nat.mod_lt _ hb
    rw [bufLoop]
    by_cases hc : d.nx + p.length ≥ bs
    · rw [if_pos hc, if_neg (by omega)]
      have hput : putAt d.x d.nx p = tailOf bs M ++ p.take (bs - d.nx) := by
        rw [putAt_full _ _ _ (by omega) (by omega), hx, hl]
      have hlen : (tailOf bs M ++ p.take (bs - d.nx)).length = bs := by
        rw [List.length_append, tailOf_length, ← hn, List.length_take]; omega
      have hdvd : (M ++ p.take (bs - d.nx)).length % bs = 0 := by
        rw [List.length_append, List.length_take, Nat.min_eq_left (by omega), Nat.add_mod, ← hn]
        rcases Nat.eq_zero_or_pos d.nx with h0 | h0
        · rw [h0]; simp
        · rw [Nat.mod_eq_of_lt (a := bs - d.nx) (by omega), show d.nx + (bs - d.nx) = bs by omega, Nat.mod_self]
      obtain ⟨d', M', p', h1, h2, h3⟩ := ih { d with s := blk d.s (putAt d.x d.nx p), x := putAt d.x d.nx p, nx := 0 }
        (M ++ p.take (bs - d.nx)) (p.drop (bs - d.nx)) (by rw [List.length_drop]; omega)
        (by rw [absorb_split bs hb, absorb_one bs hb _ _ _ hlen, hs, hput])
        hdvd.symm (by simp only; rw [putAt_length _ _ _ (by omega), hl])
        (by simp only [List.take_zero]; rw [tailOf_append bs hb, tailOf_one bs hb _ hlen])
      exact ⟨d', M', p', h1, by rw [h2, List.append_assoc, List.take_append_drop], h3⟩
    · rw [if_neg hc]
      exact ⟨d, M, p, rfl, rfl, hs, hn, hl, hx, by omega⟩

/-- Every `Write` of this shape succeeds and appends to the message. -/
theorem bufWrite_holds {σ : Type} (bs : Nat) (hb : 0 < bs) (blk : σ → Bytes → σ) (iv : σ) (d : Buf σ) (M p : Bytes)
    (h : Holds bs blk iv d M) : ∃ d', bufWrite bs blk d p = .ok d' ∧ Holds bs blk iv d' (M ++ p) := by
  obtain ⟨d', M', p', h1, h2, h3, h4, h5, h6, h7⟩ := bufLoop_holds bs hb blk iv (p.length + 1) d M p (by omega) h.s h.nx h.xl h.x
  have hlt : d'.nx ≤ d'.x.length := by rw [h4, h5]; exact Nat.le_of_lt (Nat.mod_lt _ hb)
  refine ⟨_, by rw [bufWrite, h1]; simp only [Res.bind]; rw [if_neg (by omega)], ?_⟩
  have htl : (tailOf bs M' ++ p').length < bs := by rw [List.length_append, tailOf_length, ← h4]; exact h7
  constructor
  · simp only; rw [h3, ← h2, absorb_split bs hb, absorb_short bs blk _ _ htl]
  · simp only
    rw [← h2, List.length_append, Nat.add_mod, ← h4, Nat.mod_eq_of_lt (a := p'.length) (by omega), Nat.mod_eq_of_lt h7]
  · simp only; rw [putAt_length _ _ _ hlt, h5]
  · simp only
    rw [putAt_fit _ _ _ (by omega), h6, List.take_left' (by rw [List.length_append, tailOf_length, ← h4]), ← h2, tailOf_append bs hb, tailOf_short bs _ htl]
  · simp only
    rw [h.len, ← BitVec.ofNat_add, List.length_append]

theorem holds_init {σ : Type} (bs : Nat) (blk : σ → Bytes → σ) (iv : σ) (x : Bytes) (hx : x.length = bs) :
    Holds bs blk iv ⟨iv, x, 0, 0⟩ [] := by
  constructor <;> simp [absorb, fullBlocks, tailOf, hx]

/-! ### Merkle–Damgård padding with a 64-bit length -/

/-- The message, a byte 0x80, the least number of zero bytes, and an 8-byte length field, so that the total is a
multiple of 64 bytes. -/
def mdPad (lenField : Bytes) (M : Bytes) : Bytes :=
  M ++ 0x80#8 :: (List.replicate ((119 - M.length % 64) % 64) 0#8 ++ lenField)

theorem mdPad_length (lf M : Bytes) (h : lf.length = 8) : (mdPad lf M).length % 64 = 0 := by
  simp only [mdPad, List.length_append, List.length_cons, List.length_replicate, h]
  have := Nat.mod_lt M.length (show 0 < 64 by decide)
  omega

theorem absorb_md_short {σ : Type} (blk : σ → Bytes → σ) (iv : σ) (lf M : Bytes) (h : lf.length = 8) (hr : M.length % 64 < 56) :
    absorb 64 blk iv (mdPad lf M) =
      blk (absorb 64 blk iv M) (tailOf 64 M ++ 0x80#8 :: (List.replicate (55 - M.length % 64) 0#8 ++ lf)) := by
  rw [mdPad, absorb_split 64 (by decide), absorb_one 64 (by decide)]
  · rw [show (119 - M.length % 64) % 64 = 55 - M.length % 64 by omega]
  · rw [List.length_append, tailOf_length]; simp [h]; omega

theorem absorb_md_long {σ : Type} (blk : σ → Bytes → σ) (iv : σ) (lf M : Bytes) (h : lf.length = 8) (hr : 56 ≤ M.length % 64) :
    absorb 64 blk iv (mdPad lf M) =
      blk (blk (absorb 64 blk iv M) (tailOf 64 M ++ 0x80#8 :: List.replicate (63 - M.length % 64) 0#8)) (List.replicate 56 0#8 ++ lf) := by
  have hlt := Nat.mod_lt M.length (show 0 < 64 by decide)
  have h1 : (tailOf 64 M ++ 0x80#8 :: List.replicate (63 - M.length % 64) 0#8).length = 64 := by
    rw [List.length_append, tailOf_length]; simp; omega
  rw [mdPad, absorb_split 64 (by decide),
    show tailOf 64 M ++ 0x80#8 :: (List.replicate ((119 - M.length % 64) % 64) 0#8 ++ lf) =
      (tailOf 64 M ++ 0x80#8 :: List.replicate (63 - M.length % 64) 0#8) ++ (List.replicate 56 0#8 ++ lf) by
    rw [show (119 - M.length % 64) % 64 = (63 - M.length % 64) + 56 by omega, ← List.replicate_append_replicate]
    simp,
    absorb_split 64 (by decide), tailOf_one 64 (by decide) _ h1, absorb_one 64 (by decide) _ _ _ h1, List.nil_append,
    absorb_one 64 (by decide)]
  simp [h]

/-! ### what the code does to its buffer when finishing -/

theorem putAt_zeros (x : Bytes) (off n : Nat) (h1 : off ≤ x.length) (h2 : x.length ≤ off + n) :
    putAt x off (List.replicate n 0#8) = x.take off ++ List.replicate (x.length - off) 0#8 := by
  rw [putAt_full _ _ _ (by simp; omega) h1, List.take_replicate, Nat.min_eq_left (by omega)]

theorem set_take_succ (x : Bytes) (r : Nat) (v : Byte) (h : r < x.length) : (x.set r v).take (r + 1) = x.take r ++ [v] := by
  rw [List.take_add_one, List.take_set_of_le (Nat.le_refl _)]
  simp [h]

/-- 0x80 after the tail, then zeros to the end of the block. -/
theorem padBuf (x T : Bytes) (r : Nat) (hx : x.length = 64) (hr : r < 64) (hT : x.take r = T) :
    putAt (x.set r 0x80#8) (r + 1) (List.replicate 64 0#8) = T ++ 0x80#8 :: List.replicate (63 - r) 0#8 := by
  rw [putAt_zeros _ _ _ (by simp [hx]; omega) (by simp [hx]), set_take_succ _ _ _ (by omega), hT, List.length_set, hx]
  simp only [List.append_assoc, List.singleton_append]
  rw [show 64 - (r + 1) = 63 - r by omega]

theorem putAt_end (A B lf : Bytes) (h : B.length = lf.length) : putAt (A ++ B) A.length lf = A ++ lf := by
  rw [putAt_full _ _ _ (by simp [h]) (by simp), List.take_left, List.length_append, Nat.add_sub_cancel_left,
    List.take_of_length_le (by omega)]

/-- Storing the length field in the block when it fits. -/
theorem padBuf_len (T lf : Bytes) (r : Nat) (hT : T.length = r) (hr : r < 56) (hlf : lf.length = 8) :
    putAt (T ++ 0x80#8 :: List.replicate (63 - r) 0#8) 56 lf = T ++ 0x80#8 :: (List.replicate (55 - r) 0#8 ++ lf) := by
  have e : T ++ 0x80#8 :: List.replicate (63 - r) 0#8 = (T ++ 0x80#8 :: List.replicate (55 - r) 0#8) ++ List.replicate 8 0#8 := by
    rw [show 63 - r = (55 - r) + 8 by omega, ← List.replicate_append_replicate]; simp
  have l : (T ++ 0x80#8 :: List.replicate (55 - r) 0#8).length = 56 := by simp [hT]; omega
  rw [e, ← l, putAt_end _ _ _ (by simp [hlf])]
  simp

theorem zeros_len (lf : Bytes) (hlf : lf.length = 8) : putAt (List.replicate 64 0#8) 56 lf = List.replicate 56 0#8 ++ lf := by
  have e : List.replicate 64 0#8 = List.replicate 56 0#8 ++ List.replicate 8 0#8 := by
    rw [List.replicate_append_replicate]
  have := putAt_end (List.replicate 56 0#8) (List.replicate 8 0#8) lf (by simp [hlf])
  rw [List.length_replicate] at this
  rw [e, this]

open Verif.Cipher in
theorem leBytes_add (m n v : Nat) : leBytes (m + n) v = leBytes m v ++ leBytes n (v / 256 ^ m) := by
  induction m generalizing v with
  | zero => simp [leBytes]
  | succ m ih =>
    rw [show m + 1 + n = (m + n) + 1 by omega, leBytes, leBytes, ih, Nat.div_div_eq_div_mul, Nat.pow_succ, Nat.mul_comm 256]
    rfl

open Verif.Cipher in
theorem leBytes_mod (n v : Nat) : leBytes n (v % 256 ^ n) = leBytes n v := by
  have h := leBytes_leN (leBytes n v)
  rw [leBytes_length, leN_leBytes] at h
  exact h

end Verif.Hash
