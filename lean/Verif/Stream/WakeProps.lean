import Verif.Stream.Wake
import Mathlib.Tactic.ByContra
/-
Theorems about /repo/cipher/wake.
-/
namespace Verif.Strm.Wake
open Verif.Mode Verif.Cipher

/-! ### Same cuts: decryption inverts -/

theorem step_inv (v : Bytes) (o : Obj) (b : Byte) :
    (step true v o (step false v o b).1).1 = b ∧ (step true v o (step false v o b).1).2 = (step false v o b).2 := by
  have h : ∀ x k : Byte, x ^^^ k ^^^ k = x := fun x k => by rw [BitVec.xor_assoc, BitVec.xor_self, BitVec.xor_zero]
  unfold step
  by_cases hc : o.counter + 1 = 4
  · simp [hc, h]
  · simp [hc, h]

theorem loop_inv (n : Nat) (v : Bytes) (o : Obj) (l : Bytes) :
    loop true n v o (loop false n v o l).1 = (l, (loop false n v o l).2) ∧ (loop false n v o l).1.length = l.length := by
  induction n generalizing v o l with
  | zero => exact ⟨rfl, rfl⟩
  | succ n ih =>
    cases l with
    | nil => exact ⟨rfl, rfl⟩
    | cons b l =>
      obtain ⟨h1, h2⟩ := step_inv v o b
      obtain ⟨i1, i2⟩ := ih (step false v o b).2.1 (step false v o b).2.2 l
      have e1 : loop false (n + 1) v o (b :: l) = ((step false v o b).1 :: (loop false n (step false v o b).2.1 (step false v o b).2.2 l).1,
        (loop false n (step false v o b).2.1 (step false v o b).2.2 l).2) := rfl
      have e2 : ∀ c r, loop true (n + 1) v o (c :: r) = ((step true v o c).1 :: (loop true n (step true v o c).2.1 (step true v o c).2.2 r).1,
        (loop true n (step true v o c).2.1 (step true v o c).2.2 r).2) := fun _ _ => rfl
      rw [e1]
      simp only []
      rw [e2, h1, h2, i1]
      exact ⟨rfl, by simp [i2]⟩

theorem crypt_inv (o : Obj) (l : Bytes) :
    crypt true o (crypt false o l).1 = (l, (crypt false o l).2) ∧ (crypt false o l).1.length = l.length := by
  have h := loop_inv (iters l.length) (be4 0) o l
  refine ⟨?_, h.2⟩
  have : (crypt false o l).1.length = l.length := h.2
  unfold crypt at *
  rw [this]
  exact h.1

theorem loop_length (d : Bool) (n : Nat) (v : Bytes) (o : Obj) (l : Bytes) : (loop d n v o l).1.length = l.length := by
  induction n generalizing v o l with
  | zero => rfl
  | succ n ih =>
    cases l with
    | nil => rfl
    | cons b l =>
      show ((step d v o b).1 :: (loop d n (step d v o b).2.1 (step d v o b).2.2 l).1).length = _
      simp [ih]

theorem crypt_length (d : Bool) (o : Obj) (l : Bytes) : (crypt d o l).1.length = l.length := loop_length ..

theorem call_ok {d : Bool} {o : Obj} {m m' : Mem} {dst src : Slice} {y : Obj} (h : call d o m dst src = .ok (m', y)) :
    m'.read dst.ptr src.len = (crypt d o (m.read src.ptr src.len)).1 ∧ y = (crypt d o (m.read src.ptr src.len)).2 := by
  unfold call at h
  split at h
  · cases h
  · split at h
    · cases h
    · simp only at h
      cases h
      exact ⟨Mem.read_write_self' _ _ _ _ (by rw [crypt_length]; simp), rfl⟩

/-- A history, seen as a function of the inputs. -/
def cryptAll (d : Bool) : Obj → List Bytes → List Bytes × Obj
  | o, [] => ([], o)
  | o, l :: ls => ((crypt d o l).1 :: (cryptAll d (crypt d o l).2 ls).1, (cryptAll d (crypt d o l).2 ls).2)

theorem calls_eq {d : Bool} {A : Slice → Slice → Prop} {o y : Obj} {ins outs : List Bytes} (h : Calls A (call d) o ins outs y) :
    outs = (cryptAll d o ins).1 ∧ y = (cryptAll d o ins).2 := by
  induction h with
  | nil => exact ⟨rfl, rfl⟩
  | @cons st st' st'' m m' dst src ins outs ha h t ih =>
    obtain ⟨h1, h2⟩ := call_ok h
    subst h2
    rw [h1, ih.1, ih.2]
    exact ⟨rfl, rfl⟩

theorem cryptAll_inv (ls : List Bytes) : ∀ o, cryptAll true o (cryptAll false o ls).1 = (ls, (cryptAll false o ls).2) := by
  induction ls with
  | nil => intro o; rfl
  | cons l ls ih =>
    intro o
    have h := (crypt_inv o l).1
    show ((crypt true o (crypt false o l).1).1 :: _, _) = _
    rw [h]
    simp only []
    rw [ih]
    rfl

/-- **C136** (WAKE): an object made from the same key turns the ciphertexts back into the plaintexts when it is given them call by call, in
the lengths in which they were made; every call with room in `dst` and no partial overlap succeeds and writes `len(src)` bytes. -/
theorem C136_wake_roundtrip_partial (key : Bytes) (o y y' : Obj) (ins outs outs' : List Bytes) (_ho : newCipher key = .ok o)
    (he : Calls Any (call false) o ins outs y) (hd : Calls Any (call true) o outs outs' y') :
    outs' = ins ∧ y = y' ∧ ∀ d m dst src, src.len ≤ dst.len ∧ NoPartialOverlap dst src →
      ∃ b y1, b.length = src.len ∧ call d y m dst src = .ok (m.write dst.ptr b, y1) := by
  obtain ⟨h1, h2⟩ := calls_eq he
  obtain ⟨h3, h4⟩ := calls_eq hd
  have := cryptAll_inv ins o
  rw [← h1] at this
  rw [this] at h3 h4
  refine ⟨h3, by rw [h2, h4], ?_⟩
  intro d m dst src ⟨h5, h6⟩
  have h6' : inexactOverlap ⟨dst.ptr, src.len, dst.cap⟩ src = false := by simpa [NoPartialOverlap] using h6
  refine ⟨(crypt d y (m.read src.ptr src.len)).1, (crypt d y (m.read src.ptr src.len)).2, by rw [crypt_length]; simp, ?_⟩
  rw [call, if_neg (by omega), h6', if_neg (by simp)]

/-! ### What it computes, for calls of whole words -/

/-- WAKE on words: each is XORed with `r6`, and the four registers are updated with the ciphertext word. -/
def wake (t : List W) : W × W × W × W → List W → List W
  | _, [] => []
  | (r3, r4, r5, r6), p :: ps =>
    let c := p ^^^ r6
    let r3 := M t r3 c
    let r4 := M t r4 r3
    let r5 := M t r5 r4
    let r6 := M t r6 r5
    c :: wake t (r3, r4, r5, r6) ps

def regs (o : Obj) : W × W × W × W := (o.r3, o.r4, o.r5, o.r6)


theorem be4_length (w : W) : (be4 w).length = 4 := by simp [be4]

theorem leBytes_xor (n a b : Nat) : leBytes n (a ^^^ b) = List.zipWith (· ^^^ ·) (leBytes n a) (leBytes n b) := by
  induction n generalizing a b with
  | zero => rfl
  | succ n ih =>
    have : (a ^^^ b) / 256 = (a / 256) ^^^ (b / 256) := by
      have h := Nat.shiftRight_xor_distrib (a := a) (b := b) (i := 8)
      simpa [Nat.shiftRight_eq_div_pow] using h
    simp only [leBytes, List.zipWith_cons_cons, BitVec.ofNat_xor, this, ih]

theorem unbe4_be4 (w : W) : unbe4 (be4 w) = w := by
  unfold unbe4 be4
  rw [List.reverse_reverse, leN_leBytes, Nat.mod_eq_of_lt (by simpa using w.isLt), BitVec.ofNat_toNat, BitVec.setWidth_eq]

theorem be4_unbe4 (l : Bytes) (h : l.length = 4) : be4 (unbe4 l) = l := by
  unfold be4 unbe4
  have h1 : leN l.reverse < 2 ^ 32 := by
    have := leN_lt l.reverse
    simpa [h] using this
  have h2 : (BitVec.ofNat 32 (leN l.reverse)).toNat = leN l.reverse := by simpa using h1
  have h3 : leBytes 4 (leN l.reverse) = l.reverse := by
    have := leBytes_leN l.reverse
    rwa [List.length_reverse, h] at this
  rw [h2, h3, List.reverse_reverse]

theorem be4_xor (a b : W) : be4 (a ^^^ b) = List.zipWith (· ^^^ ·) (be4 a) (be4 b) := by
  unfold be4
  rw [BitVec.toNat_xor, leBytes_xor, List.reverse_zipWith (by simp)]

/-- The registers after a ciphertext word. -/
def upd (o : Obj) (c : W) : Obj :=
  let r3 := M o.t o.r3 c
  let r4 := M o.t o.r4 r3
  let r5 := M o.t o.r5 r4
  { o with r3 := r3, r4 := r4, r5 := r5, r6 := M o.t o.r6 r5, counter := 0 }

theorem four {α : Type} (l : List α) (h : l.length = 4) : ∃ a b c d, l = [a, b, c, d] := by
  match l, h with
  | [a, b, c, d], _ => exact ⟨a, b, c, d, rfl⟩

theorem loop_word (n : Nat) (v : Bytes) (hv : v.length = 4) (o : Obj) (ho : o.counter = 0) (p : W) (l : Bytes) :
    ∃ v', v'.length = 4 ∧ loop false (n + 4) v o (be4 p ++ l) =
      (be4 (p ^^^ o.r6) ++ (loop false n v' (upd o (p ^^^ o.r6)) l).1, (loop false n v' (upd o (p ^^^ o.r6)) l).2) := by
  obtain ⟨p0, p1, p2, p3, hp⟩ := four (be4 p) (be4_length p)
  obtain ⟨q0, q1, q2, q3, hq⟩ := four (be4 o.r6) (be4_length _)
  obtain ⟨v0, v1, v2, v3, rfl⟩ := four v hv
  have hx : be4 (p ^^^ o.r6) = [p0 ^^^ q0, p1 ^^^ q1, p2 ^^^ q2, p3 ^^^ q3] := by rw [be4_xor, hp, hq]; rfl
  refine ⟨be4 (p ^^^ o.r6), be4_length _, ?_⟩
  have hu : unbe4 [p0 ^^^ q0, p1 ^^^ q1, p2 ^^^ q2, p3 ^^^ q3] = p ^^^ o.r6 := by rw [← hx, unbe4_be4]
  obtain ⟨t, r3, r4, r5, r6, c⟩ := o
  simp only at ho hq hx hu
  subst ho
  rw [hp, hx]
  simp [loop, step, hq, upd, hu]

/-- Big-endian words as bytes. -/
def toBytes (l : List W) : Bytes := l.flatMap be4

/-- Several words: `wake` gives the output; the registers depend on nothing else. -/
def updAll : Obj → List W → Obj
  | o, [] => o
  | o, p :: ps => updAll (upd o (p ^^^ o.r6)) ps

theorem loop_words (ps : List W) : ∀ (v : Bytes) (_ : v.length = 4) (o : Obj) (_ : o.counter = 0),
    loop false (4 * ps.length) v o (toBytes ps) = (toBytes (wake o.t (regs o) ps), updAll o ps) := by
  induction ps with
  | nil => intro v hv o ho; rfl
  | cons p ps ih =>
    intro v hv o ho
    obtain ⟨v', hv', h⟩ := loop_word (4 * ps.length) v hv o ho p (toBytes ps)
    have e : toBytes (p :: ps) = be4 p ++ toBytes ps := rfl
    rw [e, List.length_cons, Nat.mul_add, h, ih v' hv' _ rfl]
    rfl

theorem updAll_counter (ps : List W) : ∀ o : Obj, o.counter = 0 → (updAll o ps).counter = 0 ∧ (updAll o ps).t = o.t := by
  induction ps with
  | nil => intro o h; exact ⟨h, rfl⟩
  | cons p ps ih => intro o h; exact ih (upd o (p ^^^ o.r6)) rfl

theorem wake_append (ps qs : List W) : ∀ o : Obj,
    wake o.t (regs o) (ps ++ qs) = wake o.t (regs o) ps ++ wake (updAll o ps).t (regs (updAll o ps)) qs := by
  induction ps with
  | nil => intro o; rfl
  | cons p ps ih =>
    intro o
    show (p ^^^ o.r6) :: wake o.t (regs (upd o (p ^^^ o.r6))) (ps ++ qs) = _
    have := ih (upd o (p ^^^ o.r6))
    rw [show (upd o (p ^^^ o.r6)).t = o.t from rfl] at this
    rw [this]
    rfl

theorem toBytes_length (ps : List W) : (toBytes ps).length = 4 * ps.length := by
  induction ps with
  | nil => rfl
  | cons p ps ih =>
    show (be4 p ++ toBytes ps).length = _
    rw [List.length_append, be4_length, ih, List.length_cons]; omega

theorem toBytes_surj (n : Nat) : ∀ l : Bytes, l.length = 4 * n → ∃ ps, ps.length = n ∧ toBytes ps = l := by
  induction n with
  | zero => intro l h; exact ⟨[], rfl, by simp at h; subst h; rfl⟩
  | succ n ih =>
    intro l h
    obtain ⟨ps, h1, h2⟩ := ih (l.drop 4) (by simp; omega)
    refine ⟨unbe4 (l.take 4) :: ps, by simp [h1], ?_⟩
    show be4 _ ++ toBytes ps = l
    rw [be4_unbe4 _ (by simp; omega), h2, List.take_append_drop]

theorem toBytes_inj (ps : List W) : ∀ qs, toBytes ps = toBytes qs → ps = qs := by
  induction ps with
  | nil =>
    intro qs h
    have := congrArg List.length h
    rw [toBytes_length, toBytes_length] at this
    simp at this
    exact (List.eq_nil_of_length_eq_zero (by omega)).symm
  | cons p ps ih =>
    intro qs h
    cases qs with
    | nil =>
      have := congrArg List.length h
      rw [toBytes_length, toBytes_length] at this
      simp at this
    | cons q qs =>
      obtain ⟨h1, h2⟩ := List.append_inj (show be4 p ++ toBytes ps = be4 q ++ toBytes qs from h) (by simp [be4_length])
      have := congrArg unbe4 h1
      rw [unbe4_be4, unbe4_be4] at this
      rw [this, ih qs h2]

theorem crypt_words (o : Obj) (ho : o.counter = 0) (ps : List W) (h : 4 * ps.length < 2 ^ 31) :
    crypt false o (toBytes ps) = (toBytes (wake o.t (regs o) ps), updAll o ps) := by
  unfold crypt iters
  rw [toBytes_length, Nat.mod_eq_of_lt (by omega), if_pos h]
  exact loop_words ps _ (be4_length _) o ho

theorem toBytes_append (a b : List W) : toBytes (a ++ b) = toBytes a ++ toBytes b := by simp [toBytes]

theorem calls_words {A : Slice → Slice → Prop} {o y : Obj} {ins outs : List Bytes} (h : Calls A (call false) o ins outs y) :
    o.counter = 0 → (∀ l ∈ ins, 4 ∣ l.length ∧ l.length < 2 ^ 31) →
    ∃ ps, toBytes ps = ins.flatten ∧ outs.flatten = toBytes (wake o.t (regs o) ps) := by
  induction h with
  | nil => intro _ _; exact ⟨[], rfl, rfl⟩
  | @cons st st' st'' m m' dst src ins outs ha h t ih =>
    intro hc hl
    obtain ⟨h1, h2⟩ := call_ok h
    obtain ⟨⟨n, hn⟩, hlt⟩ := hl _ List.mem_cons_self
    obtain ⟨ps, hps, hb⟩ := toBytes_surj n _ hn
    rw [← hb, crypt_words st hc ps (by rw [← toBytes_length, hb]; exact hlt)] at h1 h2
    subst h2
    obtain ⟨qs, hq1, hq2⟩ := ih (updAll_counter ps st hc).1 (fun l hl' => hl l (List.mem_cons_of_mem _ hl'))
    refine ⟨ps ++ qs, ?_, ?_⟩
    · rw [toBytes_append, hq1, hb]; rfl
    · simp only at h1 hq2
      rw [wake_append, toBytes_append, ← hq2, ← h1]; rfl

/-- **C136** (WAKE): for calls of whole words, below 2^31 bytes, the output is the word recursion on the concatenation of the inputs, from the four
key words: it does not depend on how the message is cut. -/
theorem C136_wake_words (key : Bytes) (o y : Obj) (ins outs : List Bytes) (ho : newCipher key = .ok o)
    (he : Calls Any (call false) o ins outs y) (hl : ∀ l ∈ ins, 4 ∣ l.length ∧ l.length < 2 ^ 31)
    (ps : List W) (hps : ins.flatten = ps.flatMap be4) (k0 k1 k2 k3 : W) (hk : key = [k0, k1, k2, k3].flatMap be4) :
    outs.flatten = (wake o.t (k0, k1, k2, k3) ps).flatMap be4 := by
  have hc : o = expandKey key := by
    unfold newCipher at ho
    split at ho
    · exact (Res.ok.inj ho).symm
    · exact absurd ho (by simp)
  have hc0 : o.counter = 0 := by rw [hc]; rfl
  obtain ⟨qs, h1, h2⟩ := calls_words he hc0 hl
  have : qs = ps := toBytes_inj _ _ (by rw [h1, hps]; rfl)
  subst this
  rw [h2]
  have : ldBE 32 4 4 key = [k0, k1, k2, k3] := by
    have e : [k0, k1, k2, k3].flatMap be4 = stBE 4 [k0, k1, k2, k3] := by simp [stBE, be4]
    rw [hk, e]
    exact ldBE_stBE (by decide) [k0, k1, k2, k3]
  have hr : regs o = (k0, k1, k2, k3) := by
    rw [hc]
    simp only [regs, expandKey, this]
    rfl
  rw [hr]
  rfl

/-- The key of the examples. -/
def exKey : Bytes := (List.range 16).map fun i => BitVec.ofNat 8 (5 * i + 10)

/-- Any history can be run. -/
theorem calls_exists (d : Bool) (ins : List Bytes) : ∀ o, ∃ outs y, Calls Any (call d) o ins outs y := by
  induction ins with
  | nil => intro o; exact ⟨_, _, .nil o⟩
  | cons l ins ih =>
    intro o
    obtain ⟨outs, y, h⟩ := ih (crypt d o l).2
    have hr : (Mem.write (fun _ => 0) 0 l).read 0 l.length = l := Mem.read_write_self' _ _ _ _ rfl
    have hc := Calls.cons (A := Any) (call := call d) (st := o) (m := Mem.write (fun _ => 0) 0 l)
      (m' := (Mem.write (fun _ => 0) 0 l).write 0 (crypt d o l).1) (dst := ⟨0, l.length, l.length⟩) (src := ⟨0, l.length, l.length⟩)
      trivial (by
        rw [call, if_neg (by simp)]
        simp only
        rw [hr, if_neg (by simp [inexactOverlap])]) h
    simp only [hr] at hc
    exact ⟨_, _, hc⟩

/-- The hypotheses of the two theorems are met. -/
example : ∃ o outs y outs' y', newCipher exKey = .ok o ∧ Calls Any (call false) o [[1, 2, 3, 4], [5, 6, 7, 8, 9, 10, 11, 12]] outs y ∧
    Calls Any (call true) o outs outs' y' := by
  obtain ⟨outs, y, h⟩ := calls_exists false [[1, 2, 3, 4], [5, 6, 7, 8, 9, 10, 11, 12]] (expandKey exKey)
  obtain ⟨outs', y', h'⟩ := calls_exists true outs (expandKey exKey)
  exact ⟨expandKey exKey, outs, y, outs', y', rfl, h, h'⟩

/-- Three evaluations, together because the key expansion is slow to evaluate: the first 12 bytes of the test vector of cipher/wake/wake_test.go, and the
two counterexamples below. -/
theorem ex_facts :
    (crypt false (expandKey exKey) ((List.range 12).map fun i => BitVec.ofNat 8 (i + 5))).1 = hx 12 0x434d575d12d62c4694298389 ∧
    (crypt true (expandKey exKey) ((crypt false (expandKey exKey) [1, 2, 3, 4, 5]).1.take 1)).1 ++
      (crypt true (crypt true (expandKey exKey) ((crypt false (expandKey exKey) [1, 2, 3, 4, 5]).1.take 1)).2
        ((crypt false (expandKey exKey) [1, 2, 3, 4, 5]).1.drop 1)).1 ≠ [1, 2, 3, 4, 5] ∧
    (crypt true (crypt false (expandKey exKey) [1]).2 (crypt false (expandKey exKey) [1]).1).1 ≠ [1] := by decide +kernel

/-- **C136** is violated by WAKE when the message is not cut in the same way on both sides: five bytes encrypted in one call
do not come back when the first is decrypted in a call of its own, because a call forgets the bytes of the current word. -/
theorem C136_wake_cuts_violated : ∃ key o, newCipher key = .ok o ∧ ∃ p : Bytes,
    let c := (crypt false o p).1
    let d1 := crypt true o (c.take 1)
    d1.1 ++ (crypt true d1.2 (c.drop 1)).1 ≠ p :=
  ⟨exKey, expandKey exKey, rfl, [1, 2, 3, 4, 5], ex_facts.2.1⟩

/-- **C136** is violated by WAKE when the same object is used in the two directions: the second call goes on from where the first ended. -/
theorem C136_wake_same_object_violated : ∃ key o, newCipher key = .ok o ∧ ∃ p : Bytes,
    let e := crypt false o p
    (crypt true e.2 e.1).1 ≠ p :=
  ⟨exKey, expandKey exKey, rfl, [1], ex_facts.2.2⟩

/-- **C136** is violated by WAKE for a call of 2^31 bytes or more: the loop counter is an int32, and a call of 2^31 to 2^32 - 1 bytes writes the
plaintext to `dst` as the ciphertext. -/
theorem C136_wake_long_violated (o : Obj) (m : Mem) (dst src : Slice) (h1 : 2 ^ 31 ≤ src.len) (h2 : src.len < 2 ^ 32)
    (h3 : src.len ≤ dst.len) (h4 : NoPartialOverlap dst src) :
    call false o m dst src = .ok (m.write dst.ptr (m.read src.ptr src.len), o) := by
  have h6' : inexactOverlap ⟨dst.ptr, src.len, dst.cap⟩ src = false := by simpa [NoPartialOverlap] using h4
  rw [call, if_neg (by omega), h6', if_neg (by simp)]
  have : iters src.len = 0 := by
    unfold iters
    rw [Nat.mod_eq_of_lt h2, if_neg (by omega)]
  simp [crypt, this, loop]

end Verif.Strm.Wake
