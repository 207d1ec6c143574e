import Verif.Hash.Chunker
import Verif.Hash.RabinLemmas
/-
Specification of content-defined chunking, and lemmas about the buffer and the loops of hash/rabin/chunker.go.
-/
namespace Verif.Rabin
open Gf2

/-- Specification. The fingerprint of the last `w` of the first `k` bytes of `T` ends in ones: it is `avg - 1` modulo `avg`. -/
def Cut (P w avg : Nat) (T : Bytes) (k : Nat) : Prop := ∃ h, IsHash P (lastN w (T.take k)) h ∧ h % avg = avg - 1
/-- Specification. `n` is the length of the first chunk of `T`: the first boundary from `mn` bytes on, or `mx`, or all there is. -/
structure IsChunk (P w mn avg mx : Nat) (T : Bytes) (n : Nat) : Prop where
  le : n ≤ T.length
  max : n ≤ mx
  stop : n = T.length ∨ n = mx ∨ Cut P w avg T n
  min : mn ≤ n ∨ n = T.length
  first : ∀ k, mn ≤ k → k < n → ¬ Cut P w avg T k
/-- Specification. `ns` are the lengths of the chunks that `T` is cut into, one after the other. -/
inductive Chunks (P w mn avg mx : Nat) : Bytes → List Nat → Prop
  | nil : Chunks P w mn avg mx [] []
  | cons {T n ns} (h0 : 0 < n) (h : IsChunk P w mn avg mx T n) (t : Chunks P w mn avg mx (T.drop n) ns) : Chunks P w mn avg mx T (n :: ns)

theorem getD_take' (l : Bytes) (n i : Nat) (h : i < n) : (l.take n).getD i 0 = l.getD i 0 := by
  simp [List.getD_eq_getElem?_getD, h]
theorem getD_drop' (l : Bytes) (n i : Nat) : (l.drop n).getD i 0 = l.getD (n + i) 0 := by
  simp [List.getD_eq_getElem?_getD]
theorem getD_append (a b : Bytes) (i : Nat) : (a ++ b).getD i 0 = if i < a.length then a.getD i 0 else b.getD (i - a.length) 0 := by
  by_cases h : i < a.length
  · simp [List.getD_eq_getElem?_getD, h, List.getElem?_append_left]
  · simp [List.getD_eq_getElem?_getD, h, List.getElem?_append_right (Nat.le_of_not_lt h)]
theorem ext_getD (a b : Bytes) (hl : a.length = b.length) (h : ∀ i, i < a.length → a.getD i 0 = b.getD i 0) : a = b := by
  apply List.ext_getElem hl
  intro i h1 h2
  have := h i h1
  simpa [List.getD_eq_getElem?_getD, h1, h2] using this

theorem add_mod_cases (a d s : Nat) (hs : 0 < s) (h : d < s) : (a + d) % s = if a % s + d < s then a % s + d else a % s + d - s := by
  rw [Nat.add_mod, Nat.mod_eq_of_lt h]
  have := Nat.mod_lt a hs
  split
  · exact Nat.mod_eq_of_lt ‹_›
  · rw [Nat.mod_eq_sub_mod (by omega)]; exact Nat.mod_eq_of_lt (by omega)

/-- What does not change. -/
structure Same (c c' : Ck) : Prop where
  tab : c'.tab = c.tab
  mn : c'.mn = c.mn
  mx : c'.mx = c.mx
  mask : c'.mask = c.mask
theorem Same.trans {a b c : Ck} (h : Same a b) (k : Same b c) : Same a c := ⟨k.tab.trans h.tab, k.mn.trans h.mn, k.mx.trans h.mx, k.mask.trans h.mask⟩
theorem Same.refl (a : Ck) : Same a a := ⟨rfl, rfl, rfl, rfl⟩

/-- The state between two errors: the buffer holds the bytes from `head` to `tail`, the reader those from `tail`. -/
structure Inv (s : Nat) (D : Bytes) (c : Ck) : Prop where
  bl : c.buf.length = s
  rd : c.rd.data = D.drop c.tail
  tl : c.tail ≤ D.length
  hd : c.head ≤ c.tail
  fit : c.tail - c.head ≤ s
  buf : ∀ i, c.head ≤ i → i < c.tail → c.buf.getD (i % s) 0 = D.getD i 0
  io : c.ioErr = false

theorem Inv.setHead {s : Nat} {D : Bytes} {c : Ck} (h : Inv s D c) (j : Nat) (h1 : c.head ≤ j) (h2 : j ≤ c.tail) : Inv s D { c with head := j } := by
  refine ⟨h.bl, h.rd, h.tl, h2, ?_, fun i hi ht => h.buf i (Nat.le_trans h1 hi) ht, h.io⟩
  show c.tail - j ≤ s
  have := h.fit
  omega

theorem more_spec {s : Nat} {D : Bytes} {e : Env} (he : e.eager = false) (hs : 0 < s) {c : Ck} (h : Inv s D c) (hroom : c.tail - c.head < s) :
    Same c (more e c).2 ∧ (more e c).2.head = c.head ∧ (more e c).2.buf.length = s ∧
    (((more e c).1 = false ∧ c.tail < (more e c).2.tail ∧ Inv s D (more e c).2) ∨
     ((more e c).1 = true ∧ c.tail = D.length ∧ (more e c).2.tail = D.length ∧ (more e c).2.ioErr = true)) := by
  obtain ⟨bl, rd, tl, hd, fit, bf, io⟩ := h
  by_cases hD : c.tail = D.length
  · have hr : c.rd.data = [] := by rw [rd, hD]; simp
    have : more e c = (true, { c with rd := { c.rd with calls := c.rd.calls + 1 }, ioErr := true }) := by
      unfold more Rd.read
      rw [io]
      simp [hr]
    rw [this]
    exact ⟨⟨rfl, rfl, rfl, rfl⟩, rfl, bl, .inr ⟨rfl, hD, hD, rfl⟩⟩
  · have hr : c.rd.data ≠ [] := by
      rw [rd]; intro hh
      have := congrArg List.length hh
      rw [List.length_drop] at this
      simp at this; omega
    generalize hk : (if c.head % s ≤ c.tail % s then s - c.tail % s else c.head % s - c.tail % s) = k
    have ac := add_mod_cases c.head (c.tail - c.head) s hs hroom
    rw [show c.head + (c.tail - c.head) = c.tail from by omega] at ac
    have m1 := Nat.mod_lt c.tail hs
    have m2 := Nat.mod_lt c.head hs
    have hk1 : 0 < k ∧ k ≤ s - (c.tail - c.head) ∧ c.tail % s + k ≤ s := by
      rw [← hk]
      split at ac <;> split <;> omega
    generalize hn : min k (e.sz c.rd.calls + 1) = n
    have hn1 : 0 < n ∧ n ≤ k := by omega
    generalize hR : (D.drop c.tail).take n = R
    have lR : R.length = min n (D.length - c.tail) := by rw [← hR, List.length_take, List.length_drop]
    have hm : 0 < R.length ∧ R.length ≤ k := by omega
    have e1 : more e c = (false, { c with rd := ⟨(D.drop c.tail).drop n, c.rd.calls + 1⟩, buf := c.buf.take (c.tail % s) ++ R ++ c.buf.drop (c.tail % s + R.length), tail := c.tail + R.length, ioErr := false }) := by
      unfold more Rd.read
      rw [io, if_neg (by simp)]
      dsimp only
      rw [if_neg hr, bl, hk, hn, rd, hR, if_pos hm.1, he]
      rfl
    rw [e1]
    have lb : (c.buf.take (c.tail % s) ++ R ++ c.buf.drop (c.tail % s + R.length)).length = s := by
      rw [List.length_append, List.length_append, List.length_take, List.length_drop, bl]; omega
    refine ⟨⟨rfl, rfl, rfl, rfl⟩, rfl, lb, .inl ⟨rfl, by show c.tail < c.tail + R.length; omega, ?_⟩⟩
    refine ⟨lb, ?_, by show c.tail + R.length ≤ D.length; omega, by show c.head ≤ c.tail + R.length; omega, by show c.tail + R.length - c.head ≤ s; omega, ?_, rfl⟩
    · show (D.drop c.tail).drop n = D.drop (c.tail + R.length)
      rw [List.drop_drop]
      by_cases q : n ≤ D.length - c.tail
      · rw [lR, Nat.min_eq_left q]
      · rw [List.drop_eq_nil_of_le (by omega), List.drop_eq_nil_of_le (by omega)]
    · intro i hi ht
      replace hi : c.head ≤ i := hi
      replace ht : i < c.tail + R.length := ht
      show (c.buf.take (c.tail % s) ++ R ++ c.buf.drop (c.tail % s + R.length)).getD (i % s) 0 = D.getD i 0
      have lt : (c.buf.take (c.tail % s)).length = c.tail % s := by rw [List.length_take, bl]; omega
      rw [getD_append, getD_append, List.length_append, lt]
      by_cases hit : i < c.tail
      · rw [← bf i hi hit]
        have key : i % s < c.tail % s ∨ c.tail % s + R.length ≤ i % s := by
          by_contra hc
          have t0 := add_mod_cases c.tail (i % s - c.tail % s) s hs (by omega)
          rw [if_pos (by omega)] at t0
          have t1 := add_mod_cases i (c.tail + (i % s - c.tail % s) - i) s hs (by omega)
          rw [show i + (c.tail + (i % s - c.tail % s) - i) = c.tail + (i % s - c.tail % s) from by omega, t0] at t1
          split at t1 <;> omega
        rcases key with q | q
        · rw [if_pos (by omega), if_pos q, getD_take' _ _ _ q]
        · rw [if_neg (by omega), getD_drop']
          congr 1; omega
      · have q := add_mod_cases c.tail (i - c.tail) s hs (by omega)
        rw [show c.tail + (i - c.tail) = i from by omega, if_pos (by omega)] at q
        rw [q, if_pos (by omega), if_neg (by omega), ← hR, getD_take' _ _ _ (by omega), getD_drop']
        congr 1; omega

theorem prime_spec {s w : Nat} {D : Bytes} {e : Env} (he : e.eager = false) (hs : 0 < s) (hw : w ≤ s) (f : Nat) {c : Ck} (h : Inv s D c) (hf : c.head + w - c.tail < f) :
    ∃ b c', prime e w f c = .ok (b, c') ∧ Same c c' ∧ c'.buf.length = s ∧
      ((b = false ∧ c'.head = c.head ∧ c.head + w ≤ c'.tail ∧ Inv s D c') ∨ (b = true ∧ D.length < c.head + w ∧ c'.tail = D.length ∧ c'.ioErr = true)) := by
  induction f generalizing c with
  | zero => omega
  | succ f ih =>
    unfold prime
    by_cases hc : c.tail < c.head + w
    · rw [if_pos hc]
      obtain ⟨m1, m2, m3, m4⟩ := more_spec he hs h (by omega)
      rcases m4 with ⟨a1, a2, a3⟩ | ⟨a1, a2, a3, a4⟩
      · obtain ⟨b, c', p1, p2, p3, p4⟩ := ih a3 (by rw [m2]; omega)
        refine ⟨b, c', ?_, m1.trans p2, p3, ?_⟩
        · dsimp only; rw [a1]; exact p1
        · rw [m2] at p4; exact p4
      · refine ⟨true, (more e c).2, ?_, m1, m3, .inr ⟨rfl, by omega, a3, a4⟩⟩
        dsimp only; rw [a1]; rfl
    · rw [if_neg hc]
      exact ⟨false, c, rfl, Same.refl _, h.bl, .inl ⟨rfl, rfl, by omega, h⟩⟩

/-- What discard needs: the buffer is empty. -/
structure Pre (s : Nat) (D : Bytes) (c : Ck) : Prop where
  bl : c.buf.length = s
  rd : c.rd.data = D.drop c.tail
  tl : c.tail ≤ D.length
  io : c.ioErr = false

theorem discardLoop_spec {s : Nat} {D : Bytes} {e : Env} (he : e.eager = false) (hs : 0 < s) (f n : Nat) {c : Ck} (h : Pre s D c) (hf : n < f) :
    ∃ b c', discardLoop e f n c = .ok (b, c') ∧ Same c c' ∧ c'.head = c.head ∧ c'.buf.length = s ∧
      ((b = false ∧ c'.tail = c.tail + n ∧ Pre s D c') ∨ (b = true ∧ D.length < c.tail + n ∧ c'.tail = D.length ∧ c'.ioErr = true)) := by
  induction f generalizing c n with
  | zero => omega
  | succ f ih =>
    obtain ⟨bl, rd, tl, io⟩ := h
    unfold discardLoop
    by_cases hn : n = 0
    · subst hn
      rw [if_pos rfl]
      exact ⟨false, c, rfl, Same.refl _, rfl, bl, .inl ⟨rfl, rfl, ⟨bl, rd, tl, io⟩⟩⟩
    · rw [if_neg hn]
      by_cases hD : c.tail = D.length
      · have hr : c.rd.data = [] := by rw [rd, hD]; simp
        refine ⟨true, { c with rd := { c.rd with calls := c.rd.calls + 1 }, ioErr := true }, ?_, ⟨rfl, rfl, rfl, rfl⟩, rfl, bl, .inr ⟨rfl, by omega, hD, rfl⟩⟩
        unfold Rd.read
        simp [hr]
      · have hr : c.rd.data ≠ [] := by
          rw [rd]; intro hh
          have := congrArg List.length hh
          rw [List.length_drop] at this
          simp at this; omega
        generalize hk : min (min s n) (e.sz c.rd.calls + 1) = k
        generalize hR : (D.drop c.tail).take k = R
        have lR : R.length = min k (D.length - c.tail) := by rw [← hR, List.length_take, List.length_drop]
        have hm : 0 < R.length ∧ R.length ≤ n ∧ R.length ≤ s := by omega
        let c1 : Ck := { c with rd := ⟨(D.drop c.tail).drop k, c.rd.calls + 1⟩, buf := R ++ c.buf.drop R.length, tail := c.tail + R.length }
        have p1 : Pre s D c1 := by
          refine ⟨?_, ?_, by show c.tail + R.length ≤ D.length; omega, io⟩
          · show (R ++ c.buf.drop R.length).length = s
            rw [List.length_append, List.length_drop, bl]; omega
          · show (D.drop c.tail).drop k = D.drop (c.tail + R.length)
            rw [List.drop_drop]
            by_cases q : k ≤ D.length - c.tail
            · rw [lR, Nat.min_eq_left q]
            · rw [List.drop_eq_nil_of_le (by omega), List.drop_eq_nil_of_le (by omega)]
        obtain ⟨b, c', q1, q2, q3, q4, q5⟩ := ih (n - R.length) p1 (by omega)
        refine ⟨b, c', ?_, Same.trans (b := c1) ⟨rfl, rfl, rfl, rfl⟩ q2, q3, q4, ?_⟩
        · unfold Rd.read
          rw [if_neg hr, bl]
          dsimp only
          rw [hk, rd, hR, he]
          exact q1
        · have t1 : c1.tail = c.tail + R.length := rfl
          rw [t1] at q5
          rw [show c.tail + R.length + (n - R.length) = c.tail + n from by omega] at q5
          exact q5

theorem discard_spec {s : Nat} {D : Bytes} {e : Env} (he : e.eager = false) (hs : 0 < s) (n : Nat) {c : Ck} (h : Pre s D c) :
    ∃ b c', discard e n c = .ok (b, c') ∧ Same c c' ∧ c'.head = c.head ∧ c'.buf.length = s ∧
      ((b = false ∧ c'.tail = c.tail + n ∧ Pre s D c') ∨ (b = true ∧ D.length < c.tail + n ∧ c'.tail = D.length ∧ c'.ioErr = true)) := by
  unfold discard
  rw [h.io, if_neg (by simp)]
  by_cases hd : e.disc = true
  · rw [if_pos hd]
    have ld : c.rd.data.length = D.length - c.tail := by rw [h.rd, List.length_drop]
    have tl := h.tl
    dsimp only
    refine ⟨_, _, rfl, ⟨rfl, rfl, rfl, rfl⟩, rfl, h.bl, ?_⟩
    rw [ld]
    by_cases q : n ≤ D.length - c.tail
    · left
      rw [Nat.min_eq_left q]
      refine ⟨by simp, rfl, h.bl, ?_, by show c.tail + n ≤ D.length; omega, by simp⟩
      show c.rd.data.drop n = D.drop (c.tail + n)
      rw [h.rd, List.drop_drop]
    · right
      rw [Nat.min_eq_right (by omega)]
      exact ⟨by simp; omega, by omega, by show c.tail + (D.length - c.tail) = D.length; omega, by simp; omega⟩
  · rw [if_neg hd]
    exact discardLoop_spec he hs (n + 1) n h (by omega)

/-- The first window (hash/rabin/chunker.go:151-163). -/
theorem window_eq {s w : Nat} {D : Bytes} {c : Ck} (hs : 0 < s) (hw : w ≤ s) (h : Inv s D c) (ht : c.head + w ≤ c.tail) :
    (let b := c.buf.drop (c.head % c.buf.length)
     let b1 := if w ≤ b.length then b.take w else b
     let b2 := if w ≤ b.length then [] else c.buf.take (w - b.length)
     b1 ++ b2) = (D.drop c.head).take w := by
  have hx := Nat.mod_lt c.head hs
  have tl := h.tl
  dsimp only
  rw [h.bl]
  have lb : (c.buf.drop (c.head % s)).length = s - c.head % s := by rw [List.length_drop, h.bl]
  have lr : ((D.drop c.head).take w).length = w := by rw [List.length_take, List.length_drop]; omega
  by_cases q : w ≤ (c.buf.drop (c.head % s)).length
  · rw [if_pos q, if_pos q, List.append_nil]
    apply ext_getD
    · rw [lr, List.length_take]; omega
    · intro i hi
      rw [List.length_take] at hi
      rw [getD_take' _ _ _ (by omega), getD_take' _ _ _ (by omega), getD_drop', getD_drop', ← h.buf (c.head + i) (by omega) (by omega),
        add_mod_cases c.head i s hs (by omega), if_pos (by omega)]
  · rw [if_neg q, if_neg q]
    have lt : (c.buf.take (w - (c.buf.drop (c.head % s)).length)).length = w - (s - c.head % s) := by rw [List.length_take, lb, h.bl]; omega
    apply ext_getD
    · rw [lr, List.length_append, lt, lb]; omega
    · intro i hi
      rw [List.length_append, lt, lb] at hi
      rw [getD_append, lb, getD_take' (D.drop c.head) w i (by omega), getD_drop' D, ← h.buf (c.head + i) (by omega) (by omega), add_mod_cases c.head i s hs (by omega)]
      by_cases z : i < s - c.head % s
      · rw [if_pos z, if_pos (by omega), getD_drop']
      · rw [if_neg z, if_neg (by omega), getD_take' _ _ _ (by omega)]
        congr 1; omega

/-- The parameters of a chunker. -/
structure Par (P n w avg : Nat) (c : Ck) : Prop where
  tf : TableFor P n c.tab
  pop : ∀ i, i < 256 → c.tab.pop.getD i 0 = BitVec.ofNat 64 (polyMod (i <<< ((w - 1) * 8)) P)
  win : c.tab.window = w
  w0 : 0 < w
  mask : ∃ k, k < 64 ∧ avg = 2 ^ k ∧ c.mask = BitVec.ofNat 64 avg - 1

theorem Par.same {P n w avg : Nat} {c c' : Ck} (h : Par P n w avg c) (k : Same c c') : Par P n w avg c' := by
  obtain ⟨a, b, d, e, f⟩ := h
  exact ⟨k.tab ▸ a, k.tab ▸ b, k.tab ▸ d, e, k.mask ▸ f⟩

theorem mask_iff (h : BitVec 64) (k : Nat) (hk : k < 64) : h &&& (BitVec.ofNat 64 (2 ^ k) - 1) = BitVec.ofNat 64 (2 ^ k) - 1 ↔ h.toNat % 2 ^ k = 2 ^ k - 1 := by
  have p : 0 < 2 ^ k := Nat.two_pow_pos k
  have l : 2 ^ k < 2 ^ 64 := Nat.pow_lt_pow_right (by omega) hk
  have e : (BitVec.ofNat 64 (2 ^ k) - 1).toNat = 2 ^ k - 1 := by
    rw [BitVec.toNat_sub_of_le]
    · simp only [BitVec.toNat_ofNat]; rw [Nat.mod_eq_of_lt l]; rfl
    · rw [BitVec.le_def]; simp only [BitVec.toNat_ofNat]; rw [Nat.mod_eq_of_lt l]; exact p
  rw [← BitVec.toNat_inj, BitVec.toNat_and, e, Nat.and_two_pow_sub_one_eq_mod]

theorem cut_iff {P n w avg : Nat} {c : Ck} (h : Par P n w avg c) {hash : BitVec 64} {T : Bytes} {k : Nat} (hg : Good P n hash (lastN w (T.take k))) :
    Cut P w avg T k ↔ hash &&& c.mask = c.mask := by
  obtain ⟨j, hj, ha, hm⟩ := h.mask
  rw [hm, ha, mask_iff hash j hj]
  have hi := good_isHash h.tf hg
  constructor
  · rintro ⟨x, hx, hr⟩
    have : x = hash.toNat := poly_injective (hx.trans hi.symm)
    rw [← this]; exact hr
  · intro hr
    exact ⟨_, hi, hr⟩

theorem lastN_drop (w start j : Nat) (D : Bytes) (h1 : start ≤ j) (h2 : j + w ≤ D.length) : lastN w ((D.drop start).take (j + w - start)) = (D.drop j).take w := by
  unfold lastN
  have : ((D.drop start).take (j + w - start)).length = j + w - start := by rw [List.length_take, List.length_drop]; omega
  rw [this, List.drop_take, List.drop_drop]
  congr 1
  · omega
  · congr 1; omega

theorem take_drop_cons (D : Bytes) (j v : Nat) (hj : j < D.length) : (D.drop j).take (v + 1) = D.getD j 0 :: (D.drop (j + 1)).take v := by
  rw [List.drop_eq_getElem_cons hj, List.take_succ_cons, List.getD_eq_getElem?_getD, List.getElem?_eq_getElem hj]
  rfl

theorem seek_spec {P n s w avg start mn : Nat} {D : Bytes} {e : Env} (he : e.eager = false) (hs : 0 < s) (hw : w < s) (limit : Nat) (f : Nat) {j refill : Nat} {hash : BitVec 64} {c : Ck}
    (hp : Par P n w avg c) (h : Inv s D c) (h1 : c.head ≤ j) (h2 : j + w ≤ c.tail) (h3 : refill = c.tail - w) (h4 : Good P n hash ((D.drop j).take w)) (h5 : start ≤ j)
    (h6 : j ≤ limit) (h7 : ∀ k, mn ≤ k → start + k < j + w → ¬ Cut P w avg (D.drop start) k) (hf : limit - j < f) :
    ∃ j' c', seek e w limit f j refill hash c = .ok (j', c') ∧ Same c c' ∧ j ≤ j' ∧ j' ≤ limit ∧ j' + w ≤ D.length ∧ c'.buf.length = s ∧
      (∀ k, mn ≤ k → start + k < j' + w → ¬ Cut P w avg (D.drop start) k) ∧
      ((Inv s D { c' with head := j' + w } ∧ (j' = limit ∨ Cut P w avg (D.drop start) (j' + w - start))) ∨ (c'.ioErr = true ∧ j' + w = D.length)) := by
  induction f generalizing j refill hash c with
  | zero => omega
  | succ f ih =>
    have tl := h.tl
    have ci := cut_iff (T := D.drop start) (k := j + w - start) hp (hash := hash) (by rw [lastN_drop w start j D h5 (by omega)]; exact h4)
    unfold seek
    by_cases hc : hash &&& c.mask ≠ c.mask ∧ j < limit
    · rw [if_pos hc]
      dsimp only
      have h7' : ∀ k, mn ≤ k → start + k < j + 1 + w → ¬ Cut P w avg (D.drop start) k := by
        intro k a b
        by_cases q : start + k < j + w
        · exact h7 k a q
        · have : k = j + w - start := by omega
          rw [this, ci]; exact hc.1
      have step1 : ∀ (c1 : Ck), Par P n w avg c1 → Inv s D c1 → c1.head ≤ j → j + w < c1.tail → Same c c1 →
          ∃ j' c', seek e w limit f (j + 1) (c1.tail - w) (step c1.tab (hash ^^^ c1.tab.pop.getD (c1.buf.getD (j % c1.buf.length) 0).toNat 0) (c1.buf.getD ((j + w) % c1.buf.length) 0)) c1 = .ok (j', c') ∧
            Same c c' ∧ j ≤ j' ∧ j' ≤ limit ∧ j' + w ≤ D.length ∧ c'.buf.length = s ∧ (∀ k, mn ≤ k → start + k < j' + w → ¬ Cut P w avg (D.drop start) k) ∧
            ((Inv s D { c' with head := j' + w } ∧ (j' = limit ∨ Cut P w avg (D.drop start) (j' + w - start))) ∨ (c'.ioErr = true ∧ j' + w = D.length)) := by
        intro c1 hp1 i1 k1 k2 sm
        have tl1 := i1.tl
        have w0 := hp1.w0
        rw [i1.bl, i1.buf j k1 (by omega), i1.buf (j + w) (by omega) k2]
        have gd : Good P n (step c1.tab (hash ^^^ c1.tab.pop.getD (D.getD j 0).toNat 0) (D.getD (j + w) 0)) ((D.drop (j + 1)).take w) := by
          have hj : j < D.length := by omega
          have e1 : (D.drop j).take w = D.getD j 0 :: (D.drop (j + 1)).take (w - 1) := by
            have := take_drop_cons D j (w - 1) hj
            rw [Nat.sub_add_cancel w0] at this
            exact this
          have e2 : (D.drop (j + 1)).take w = (D.drop (j + 1)).take (w - 1) ++ [D.getD (j + w) 0] := by
            obtain ⟨v, rfl⟩ : ∃ v, w = v + 1 := ⟨w - 1, by omega⟩
            have hjw : v < (D.drop (j + 1)).length := by rw [List.length_drop]; omega
            rw [Nat.add_sub_cancel, List.take_add_one, List.getElem?_eq_getElem hjw, List.getD_eq_getElem?_getD, List.getElem?_eq_getElem (show j + (v + 1) < D.length by omega)]
            simp [Nat.add_assoc, Nat.add_comm 1 v]
          rw [e2]
          refine good_step hp1.tf (good_pop hp1.tf w hp1.pop ?_ (e1 ▸ h4)) _
          rw [List.length_take, List.length_drop]; omega
        obtain ⟨j', c', q1, q2, q3, q4⟩ := ih hp1 i1 (by omega) (by omega) rfl gd (by omega) (by omega) h7' (by omega)
        exact ⟨j', c', q1, sm.trans q2, by omega, q4⟩
      by_cases hr : j = refill
      · rw [if_pos hr]
        have i0 := h.setHead j h1 (by omega)
        obtain ⟨m1, m2, m3, m4⟩ := more_spec he hs i0 (by show c.tail - j < s; omega)
        have sm : Same c (more e { c with head := j }).2 := Same.trans (b := { c with head := j }) ⟨rfl, rfl, rfl, rfl⟩ m1
        rcases m4 with ⟨a1, a2, a3⟩ | ⟨a1, a2, a3, a4⟩
        · rw [a1, if_neg (by simp)]
          refine step1 _ (hp.same sm) a3 (by rw [m2]) ?_ sm
          replace a2 : c.tail < _ := a2
          omega
        · rw [a1, if_pos rfl]
          replace a2 : c.tail = D.length := a2
          exact ⟨j, _, rfl, sm, Nat.le_refl _, h6, by omega, m3, h7, .inr ⟨a4, by omega⟩⟩
      · rw [if_neg hr, h3]
        exact step1 c hp h h1 (by omega) (Same.refl _)
    · rw [if_neg hc]
      refine ⟨j, c, rfl, Same.refl _, Nat.le_refl _, h6, by omega, h.bl, h7, .inl ⟨h.setHead _ (by omega) h2, ?_⟩⟩
      by_cases q : j = limit
      · exact .inl q
      · right
        rw [ci]
        by_contra z
        exact hc ⟨z, by omega⟩

/-- Where a chunker is: `pos` bytes of `D` have been given out. -/
def At (s : Nat) (D : Bytes) (c : Ck) (pos : Nat) : Prop := c.buf.length = s ∧ ((c.head = pos ∧ Inv s D c) ∨ (c.ioErr = true ∧ pos = D.length))

theorem next_spec {P n s w avg : Nat} {D : Bytes} {e : Env} (he : e.eager = false) (hw : w < s) {c : Ck} {pos : Nat} (hp : Par P n w avg c) (hm : w ≤ c.mn) (hx : c.mn ≤ c.mx)
    (h : At s D c pos) :
    ∃ m b c', next e c = .ok ((m, b), c') ∧ Same c c' ∧ At s D c' (pos + m) ∧
      ((pos < D.length ∧ b = false ∧ IsChunk P w c.mn avg c.mx (D.drop pos) m) ∨
       (pos = D.length ∧ m = 0 ∧ c'.ioErr = true ∧ (b = false → c.mn ≠ w ∧ c.ioErr = false))) := by
  have hs : 0 < s := by omega
  obtain ⟨hbl, h⟩ := h
  unfold next
  rcases h with ⟨hh, iv⟩ | ⟨hio, hD⟩
  · rw [if_neg (by rw [iv.io]; simp), hp.win]
    simp only [Int.toNat_natCast]
    have tl := iv.tl
    have hd := iv.hd
    generalize hr0 : (if c.tail < c.head + (c.mn - w) then discard e (c.head + (c.mn - w) - c.tail) { c with head := c.head + (c.mn - w) } else Res.ok (false, { c with head := c.head + (c.mn - w) })) = r0
    have st0 : ∃ b c', r0 = .ok (b, c') ∧ Same c c' ∧ c'.buf.length = s ∧
        ((b = false ∧ c'.head = pos + (c.mn - w) ∧ Inv s D c') ∨ (b = true ∧ D.length < pos + (c.mn - w) ∧ c'.tail = D.length ∧ c'.ioErr = true)) := by
      rw [← hr0]
      by_cases q : c.tail < c.head + (c.mn - w)
      · rw [if_pos q]
        have pr : Pre s D { c with head := c.head + (c.mn - w) } := ⟨iv.bl, iv.rd, iv.tl, iv.io⟩
        obtain ⟨b, c', d1, d2, d3, d4, d5⟩ := discard_spec he hs (c.head + (c.mn - w) - c.tail) pr
        refine ⟨b, c', d1, Same.trans (b := { c with head := c.head + (c.mn - w) }) ⟨rfl, rfl, rfl, rfl⟩ d2, d4, ?_⟩
        replace d3 : c'.head = c.head + (c.mn - w) := d3
        rcases d5 with ⟨a1, a2, a3⟩ | ⟨a1, a2, a3, a4⟩
        · replace a2 : c'.tail = c.tail + (c.head + (c.mn - w) - c.tail) := a2
          left
          refine ⟨a1, by omega, a3.bl, a3.rd, a3.tl, by omega, by omega, ?_, a3.io⟩
          intro i x y; omega
        · replace a2 : D.length < c.tail + (c.head + (c.mn - w) - c.tail) := a2
          exact .inr ⟨a1, by omega, a3, a4⟩
      · rw [if_neg q]
        exact ⟨false, _, rfl, ⟨rfl, rfl, rfl, rfl⟩, iv.bl, .inl ⟨rfl, by show c.head + _ = _; omega, iv.setHead _ (by omega) (by omega)⟩⟩
    obtain ⟨b0, c0, e0, s0, bl0, o0⟩ := st0
    subst e0
    rw [Res.bind]
    dsimp only
    have short : ∀ m, m = D.length - pos → D.length < pos + c.mn → IsChunk P w c.mn avg c.mx (D.drop pos) m := by
      intro m hm1 hm2
      have ld : (D.drop pos).length = D.length - pos := List.length_drop
      refine ⟨by omega, by omega, .inl (by omega), .inr (by omega), ?_⟩
      intro k a b; omega
    rcases o0 with ⟨b1, h1, i1⟩ | ⟨b1, h1, t1, io1⟩
    · subst b1
      rw [if_neg (by simp)]
      obtain ⟨b2, c2, e2, s2, bl2, o2⟩ := prime_spec he hs (by omega) (w + 1) i1 (w := w) (by have := i1.hd; omega)
      rw [e2, Res.bind]
      dsimp only
      rcases o2 with ⟨b3, h3, t3, i3⟩ | ⟨b3, h3, t3, io3⟩
      · subst b3
        rw [if_neg (by simp)]
        have we := window_eq hs (by omega) i3 (w := w) (by omega)
        have s02 := s0.trans s2
        have hp2 := hp.same s02
        have gd := good_update hp2.tf (if w ≤ (c2.buf.drop (c2.head % c2.buf.length)).length then [] else c2.buf.take (w - (c2.buf.drop (c2.head % c2.buf.length)).length))
          (good_update hp2.tf (if w ≤ (c2.buf.drop (c2.head % c2.buf.length)).length then (c2.buf.drop (c2.head % c2.buf.length)).take w else (c2.buf.drop (c2.head % c2.buf.length))) (good_nil (P := P) (n := n)))
        rw [List.nil_append] at gd
        dsimp only at we
        rw [we] at gd
        have tl3 := i3.tl
        rw [h1] at t3
        have mxe : c2.mx = c.mx := s02.mx
        obtain ⟨j, c4, e4, s4, a1, a2, a3, a4, a5, a6⟩ := seek_spec (mn := c.mn) (start := pos) he hs hw (pos + c2.mx - w) (c2.mx + 1) hp2 i3 (Nat.le_refl _) (by omega) rfl gd (by omega) (by omega)
          (by intro k x y; omega) (by omega)
        rw [hh, e4, Res.bind]
        refine ⟨j + w - pos, false, _, rfl, s02.trans (s4.trans ⟨rfl, rfl, rfl, rfl⟩), ⟨a4, ?_⟩, ?_⟩
        · rcases a6 with ⟨x, _⟩ | ⟨x, y⟩
          · left
            exact ⟨by show j + w = _; omega, x⟩
          · right
            exact ⟨x, by omega⟩
        · left
          have w0 := hp.w0
          have ld : (D.drop pos).length = D.length - pos := List.length_drop
          refine ⟨by omega, rfl, by omega, by omega, ?_, .inl (by omega), ?_⟩
          · rcases a6 with ⟨_, x | x⟩ | ⟨x, y⟩
            · right; left; omega
            · right; right; exact x
            · left; omega
          · intro k x y
            exact a5 k x (by omega)
      · subst b3
        rw [if_pos rfl]
        by_cases q : c2.tail ≠ c.head
        · rw [if_pos q]
          refine ⟨_, _, _, rfl, s0.trans s2, ⟨bl2, .inr ⟨io3, by omega⟩⟩, .inl ⟨by omega, rfl, short _ (by omega) (by omega)⟩⟩
        · rw [if_neg q]
          refine ⟨_, _, _, rfl, s0.trans s2, ⟨bl2, .inr ⟨io3, by omega⟩⟩, .inr ⟨by omega, rfl, io3, by simp⟩⟩
    · subst b1
      rw [if_pos rfl]
      refine ⟨_, _, _, rfl, s0, ⟨bl0, .inr ⟨io1, by omega⟩⟩, ?_⟩
      by_cases q : pos = D.length
      · exact .inr ⟨q, by omega, io1, fun _ => ⟨by omega, iv.io⟩⟩
      · exact .inl ⟨by omega, rfl, short _ (by omega) (by omega)⟩
  · rw [hio, if_pos rfl]
    exact ⟨0, true, c, rfl, Same.refl _, ⟨hbl, .inr ⟨hio, hD⟩⟩, .inr ⟨hD, rfl, hio, by simp⟩⟩

theorem bufLog_spec (w f l : Nat) (h : w * 2 ≤ 2 ^ (l + f)) : w * 2 ≤ 2 ^ bufLog w f l := by
  induction f generalizing l with
  | zero => exact h
  | succ f ih =>
    unfold bufLog
    by_cases c : 2 ^ l < w * 2
    · rw [if_pos c]; exact ih (l + 1) (by rw [show l + 1 + f = l + (f + 1) from by omega]; exact h)
    · rw [if_neg c]; omega
theorem bufLog_big (w : Nat) : w * 2 ≤ 2 ^ bufLog w w 10 := by
  apply bufLog_spec
  have := Nat.lt_two_pow_self (n := w)
  rw [Nat.pow_add]
  have : w * 2 ≤ 2 ^ w * 1024 := by omega
  rw [Nat.mul_comm (2 ^ 10)]; exact this

theorem pow_two_of_and {x : Nat} (h0 : 0 < x) (h : x &&& (x - 1) = 0) : ∃ k, x = 2 ^ k := by
  have l1 : 2 ^ x.log2 ≤ x := Nat.log2_self_le (by omega)
  have l2 : x < 2 ^ (x.log2 + 1) := Nat.lt_log2_self
  refine ⟨x.log2, ?_⟩
  by_contra c
  have a := testBit_top l1 l2
  have b : (x - 1).testBit x.log2 = true := testBit_top (by omega) (by omega)
  have : (x &&& (x - 1)).testBit x.log2 = true := by rw [Nat.testBit_and, a, b]; rfl
  rw [h] at this
  simp at this

/-- The results of the first `k` calls of Next. -/
def nexts (e : Env) : Nat → Ck → Res (List (Nat × Bool))
  | 0, _ => .ok []
  | k + 1, c => (next e c).bind fun r => (nexts e k r.2).bind fun l => .ok (r.1 :: l)

theorem nexts_end {e : Env} {c : Ck} (h : c.ioErr = true) (k : Nat) : nexts e k c = .ok (List.replicate k (0, true)) := by
  induction k with
  | zero => rfl
  | succ k ih =>
    unfold nexts
    have : next e c = .ok ((0, true), c) := by unfold next; rw [h, if_pos rfl]
    rw [this, Res.bind]
    dsimp only
    rw [ih, Res.bind, List.replicate_succ]

theorem run_spec {P n s w avg : Nat} {D : Bytes} {e : Env} (he : e.eager = false) (hw : w < s) (g : Nat) : ∀ {c : Ck} {pos : Nat}, Par P n w avg c → w ≤ c.mn → c.mn ≤ c.mx → At s D c pos →
    pos ≤ D.length → D.length - pos ≤ g →
    ∃ ns extra, Chunks P w c.mn avg c.mx (D.drop pos) ns ∧ (extra = [] ∨ extra = [(0, false)] ∧ c.mn ≠ w) ∧
      ∀ k, nexts e (ns.length + extra.length + k) c = .ok (ns.map (·, false) ++ extra ++ List.replicate k (0, true)) := by
  induction g with
  | zero =>
    intro c pos hp hm hx h h1 h2
    have hpos : pos = D.length := by omega
    obtain ⟨m, b, c', n1, n2, n3, n4⟩ := next_spec he hw hp hm hx h
    rcases n4 with ⟨a1, a2, a3⟩ | ⟨a1, a2, a3, a4⟩
    · omega
    · subst a2
      have ch : Chunks P w c.mn avg c.mx (D.drop pos) [] := by rw [hpos, List.drop_length]; exact .nil
      cases b with
      | true =>
        refine ⟨[], [], ch, .inl rfl, ?_⟩
        intro k
        cases k with
        | zero => rfl
        | succ k =>
          rw [show ([] : List Nat).length + ([] : List (Nat × Bool)).length + (k + 1) = k + 1 from by simp]
          unfold nexts
          rw [n1, Res.bind]
          dsimp only
          rw [nexts_end a3, Res.bind, List.replicate_succ]
          rfl
      | false =>
        refine ⟨[], [(0, false)], ch, .inr ⟨rfl, (a4 rfl).1⟩, ?_⟩
        intro k
        rw [show ([] : List Nat).length + [((0 : Nat), false)].length + k = k + 1 from by simp [Nat.add_comm]]
        unfold nexts
        rw [n1, Res.bind]
        dsimp only
        rw [nexts_end a3, Res.bind]
        rfl
  | succ g ih =>
    intro c pos hp hm hx h h1 h2
    by_cases hpos : pos = D.length
    · exact (ih hp hm hx h h1 (by omega))
    · obtain ⟨m, b, c', n1, n2, n3, n4⟩ := next_spec he hw hp hm hx h
      rcases n4 with ⟨a1, a2, a3⟩ | ⟨a1, _⟩
      · subst a2
        have ld : (D.drop pos).length = D.length - pos := List.length_drop
        have w0 := hp.w0
        have m0 : 0 < m := by have := a3.min; omega
        have ml := a3.le
        obtain ⟨ns, extra, r1, r2, r3⟩ := ih (hp.same n2) (by rw [n2.mn]; exact hm) (by rw [n2.mn, n2.mx]; exact hx) n3 (by omega) (by omega)
        rw [n2.mn, n2.mx] at r1
        rw [n2.mn] at r2
        refine ⟨m :: ns, extra, .cons m0 a3 (by rw [List.drop_drop]; exact r1), r2, ?_⟩
        intro k
        rw [show (m :: ns).length + extra.length + k = (ns.length + extra.length + k) + 1 from by rw [List.length_cons]; omega]
        unfold nexts
        rw [n1, Res.bind]
        dsimp only
        rw [r3 k, Res.bind]
        rfl
      · omega

end Verif.Rabin
