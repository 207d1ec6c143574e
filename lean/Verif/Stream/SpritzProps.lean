import Verif.Stream.Spritz
import Mathlib.Data.List.GetD
/-
Theorems about /repo/cipher/spritz.
-/
namespace Verif.Strm.Spritz
open Verif.Mode

/-! ### The state -/

/-- The state table is a permutation of the 256 bytes, the step `w` is odd, and at most 128 nibbles have been absorbed since the last shuffle. -/
structure Good (c : Obj) : Prop where
  perm : c.s.Perm ((List.range 256).map (BitVec.ofNat 8))
  odd : c.w.toNat % 2 = 1
  few : c.a.toNat ≤ 128

theorem perm_length {s : List Byte} (h : s.Perm ((List.range 256).map (BitVec.ofNat 8))) : s.length = 256 := by
  rw [h.length_eq]; simp

theorem swap_perm (s : List Byte) (x y : Byte) (h : s.length = 256) : (swap s x y).Perm s := by
  have hx : x.toNat < s.length := by have := x.isLt; omega
  have hy : y.toNat < s.length := by have := y.isLt; omega
  have := List.set_set_perm hx hy
  unfold swap at'
  rwa [List.getD_eq_getElem _ _ hx, List.getD_eq_getElem _ _ hy]

theorem update_good {c : Obj} (h : Good c) : Good (update c) :=
  ⟨(swap_perm _ _ _ (perm_length h.perm)).trans h.perm, h.odd, h.few⟩

theorem iterate_good (n : Nat) {c : Obj} (h : Good c) : Good (iterate update n c) := by
  induction n with
  | zero => exact h
  | succ n ih => rw [iterate_succ]; exact update_good ih

theorem odd_add (w : Byte) (h : w.toNat % 2 = 1) : (w + 2).toNat % 2 = 1 := by
  rw [BitVec.toNat_add]
  have : (2 : Byte).toNat = 2 := rfl
  rw [this]; omega

theorem whip_good (n : Nat) {c : Obj} (h : Good c) : Good (whip n c) := by
  have := iterate_good n h
  exact ⟨this.perm, odd_add _ this.odd, this.few⟩

theorem crushLoop_perm (n : Nat) : ∀ (v : Nat) (s : List Byte), s.length = 256 → (crushLoop n v s).Perm s := by
  induction n with
  | zero => intro v s h; exact List.Perm.refl _
  | succ n ih =>
    intro v s h
    unfold crushLoop
    simp only
    split
    · have hp := swap_perm s (BitVec.ofNat 8 v) (BitVec.ofNat 8 (255 - v)) h
      exact (ih _ _ (by rw [hp.length_eq, h])).trans hp
    · exact ih _ _ h

theorem crush_good {c : Obj} (h : Good c) : Good (crush c) := by
  have hp := (crushLoop_perm 128 0 c.s (perm_length h.perm)).trans h.perm
  unfold crush
  generalize crushLoop 128 0 c.s = s at *
  exact ⟨hp, h.odd, h.few⟩

theorem shuffle_good {c : Obj} (h : Good c) : Good (shuffle c) := by
  have := whip_good 512 (crush_good (whip_good 512 (crush_good (whip_good 512 h))))
  unfold shuffle
  generalize whip 512 (crush (whip 512 (crush (whip 512 c)))) = e at *
  exact ⟨this.perm, this.odd, by show (0 : Byte).toNat ≤ 128; decide⟩

theorem settle_good {c : Obj} (h : Good c) : Good (settle c) := by
  unfold settle
  split
  · exact shuffle_good h
  · exact h

theorem settle_a (c : Obj) : (settle c).a = 0 := by
  unfold settle
  split
  · rfl
  · rename_i h
    simpa using h

theorem settle_of_zero {c : Obj} (h : c.a = 0) : settle c = c := by
  unfold settle
  rw [h, if_neg (by decide)]

theorem full_good {c : Obj} (h : Good c) : Good (if c.a = 128 then shuffle c else c) ∧ (if c.a = 128 then shuffle c else c).a.toNat < 128 := by
  split
  · exact ⟨shuffle_good h, by show (0 : Byte).toNat < 128; decide⟩
  · rename_i hn
    have h1 := h.few
    have : c.a.toNat ≠ 128 := fun e => hn (BitVec.eq_of_toNat_eq e)
    exact ⟨h, by omega⟩

theorem succ_a (a : Byte) (h : a.toNat < 128) : (a + 1).toNat ≤ 128 := by
  rw [BitVec.toNat_add]
  have : (1 : Byte).toNat = 1 := rfl
  rw [this]; omega

theorem absorbNibble_good {c : Obj} (h : Good c) (x : Byte) : Good (absorbNibble c x) := by
  obtain ⟨h1, h2⟩ := full_good h
  exact ⟨(swap_perm _ _ _ (perm_length h1.perm)).trans h1.perm, h1.odd, succ_a _ h2⟩

theorem absorb_good (l : Bytes) : ∀ {c : Obj}, Good c → Good (absorb c l) := by
  induction l with
  | nil => intro c h; exact h
  | cons b l ih => intro c h; exact ih (absorbNibble_good (absorbNibble_good h _) _)

theorem absorbStop_good {c : Obj} (h : Good c) : Good (absorbStop c) := by
  obtain ⟨h1, h2⟩ := full_good h
  exact ⟨h1.perm, h1.odd, succ_a _ h2⟩

theorem drip_good {c : Obj} (h : Good c) : Good (drip c) := by
  have := update_good (settle_good h)
  exact ⟨this.perm, this.odd, this.few⟩

theorem drips_good (n : Nat) : ∀ {c : Obj}, Good c → Good (drips n c).2 := by
  induction n with
  | zero => intro c h; exact h
  | succ n ih => intro c h; exact ih (drip_good h)

theorem prepare_good {c : Obj} (h : Good c) : Good (prepare c) := by
  unfold prepare
  split
  · exact h
  · exact absorb_good _ (absorbStop_good h)

theorem crypt_good (d : Bool) {c : Obj} (h : Good c) (l : Bytes) : Good (crypt d c l).2 := drips_good _ (settle_good (prepare_good h))

theorem initial_good : Good initial := ⟨List.Perm.refl _, rfl, by decide⟩

theorem newCipher_good {key : Bytes} {iv : Option Bytes} {o : Obj} (h : newCipher key iv = .ok o) : Good o ∧ o.iv = iv := by
  unfold newCipher at h
  split at h
  · exact absurd h (by simp)
  · rw [← Res.ok.inj h]
    have := absorb_good key initial_good
    exact ⟨⟨this.perm, this.odd, this.few⟩, rfl⟩

/-! ### Calls -/

theorem drips_length (n : Nat) : ∀ c, (drips n c).1.length = n := by
  induction n with
  | zero => intro c; rfl
  | succ n ih => intro c; simp [drips, ih]

theorem crypt_length (d : Bool) (c : Obj) (l : Bytes) : (crypt d c l).1.length = l.length := by
  simp [crypt, squeeze, drips_length]

theorem call_ok {d : Bool} {o : Obj} {m m' : Mem} {dst src : Slice} {y : Obj} (h : call d o m dst src = .ok (m', y)) :
    m'.read dst.ptr src.len = (crypt d o (m.read src.ptr src.len)).1 ∧ y = (crypt d o (m.read src.ptr src.len)).2 := by
  unfold call at h
  split at h
  · exact absurd h (by simp)
  · have h' := Res.ok.inj h
    simp only [Prod.mk.injEq] at h'
    rw [← h'.1, ← h'.2]
    exact ⟨Mem.read_write_self' _ _ _ _ (by rw [crypt_length]; simp), rfl⟩

/-- Histories with encryptions and decryptions mixed. -/
inductive Hist : Obj → Obj → Prop
  | nil (c) : Hist c c
  | cons {c c' c'' m m' dst src} (d) (h : call d c m dst src = .ok (m', c')) (t : Hist c' c'') : Hist c c''

/-- **C136** (Spritz): whatever the key, the IV and the history of calls, the table is a permutation of the 256 bytes, the step is odd (so that the
index walks over the whole table), and after a call there is nothing left absorbed. -/
theorem C136_spritz_state (key : Bytes) (iv : Option Bytes) (o y : Obj) (ho : newCipher key iv = .ok o) (h : Hist o y) :
    y.s.Perm ((List.range 256).map (BitVec.ofNat 8)) ∧ y.w.toNat % 2 = 1 ∧ y.a.toNat ≤ 128 := by
  have hg : Good y := by
    have := (newCipher_good ho).1
    clear ho
    induction h with
    | nil => exact this
    | cons d h t ih =>
      apply ih
      rw [(call_ok h).2]
      exact crypt_good d this _
  exact ⟨hg.perm, hg.odd, hg.few⟩

/-! ### Same cuts: decryption inverts, with and without an IV -/

theorem zip_inv (l : Bytes) : ∀ k : Bytes, l.length = k.length →
    List.zipWith (fun m x => m - x) (List.zipWith (fun m x => m + x) l k) k = l := by
  induction l with
  | nil => intro k h; rfl
  | cons b l ih =>
    intro k h
    cases k with
    | nil => simp at h
    | cons x k => simp at h; simp [ih k h, BitVec.add_sub_cancel]

theorem crypt_inv (o : Obj) (l : Bytes) : crypt true o (crypt false o l).1 = (l, (crypt false o l).2) := by
  have h := crypt_length false o l
  unfold crypt at *
  simp only at *
  rw [h]
  refine Prod.ext ?_ rfl
  simpa using zip_inv l (squeeze l.length (prepare o)).1 (by simp [squeeze, drips_length])

def cryptAll (d : Bool) : Obj → List Bytes → List Bytes × Obj
  | o, [] => ([], o)
  | o, l :: ls => ((crypt d o l).1 :: (cryptAll d (crypt d o l).2 ls).1, (cryptAll d (crypt d o l).2 ls).2)

theorem calls_eq {d : Bool} {A : Slice → Slice → Prop} {o y : Obj} {ins outs : List Bytes} (h : Calls A (call d) o ins outs y) :
    outs = (cryptAll d o ins).1 ∧ y = (cryptAll d o ins).2 := by
  induction h with
  | nil => exact ⟨rfl, rfl⟩
  | @cons st st' st'' m m' dst src ins outs ha h t ih =>
    obtain ⟨h1, h2⟩ := call_ok h
    subst h2
    rw [h1, ih.1, ih.2]
    exact ⟨rfl, rfl⟩

theorem cryptAll_inv (ls : List Bytes) : ∀ o, cryptAll true o (cryptAll false o ls).1 = (ls, (cryptAll false o ls).2) := by
  induction ls with
  | nil => intro o; rfl
  | cons l ls ih =>
    intro o
    show ((crypt true o (crypt false o l).1).1 :: _, _) = _
    rw [crypt_inv]
    simp only []
    rw [ih]
    rfl

/-- **C136** (Spritz): with or without an IV, an object made from the same key and IV turns the ciphertexts back into the plaintexts when it is given them
call by call, in the lengths in which they were made; every call with room in `dst` succeeds, whatever the overlap. -/
theorem C136_spritz_roundtrip_partial (key : Bytes) (iv : Option Bytes) (o y y' : Obj) (ins outs outs' : List Bytes) (_ho : newCipher key iv = .ok o)
    (he : Calls Any (call false) o ins outs y) (hd : Calls Any (call true) o outs outs' y') :
    outs' = ins ∧ y = y' ∧ ∀ d m dst src, src.len ≤ dst.len →
      ∃ b y1, b.length = src.len ∧ call d y m dst src = .ok (m.write dst.ptr b, y1) := by
  obtain ⟨h1, h2⟩ := calls_eq he
  obtain ⟨h3, h4⟩ := calls_eq hd
  have := cryptAll_inv ins o
  rw [← h1] at this
  rw [this] at h3 h4
  refine ⟨h3, by rw [h2, h4], ?_⟩
  intro d m dst src h5
  refine ⟨(crypt d y (m.read src.ptr src.len)).1, (crypt d y (m.read src.ptr src.len)).2, by rw [crypt_length]; simp, ?_⟩
  rw [call, if_neg (by omega)]

/-! ### Without an IV: a key stream by position -/

/-- One step of the generator once the absorbed bytes have been shuffled in. -/
def turn (c : Obj) : Obj := output (update c)

/-- The key stream of Spritz for a key: absorb it, shuffle, then one byte per step. -/
def keystream (key : Bytes) (i : Nat) : Byte := (iterate turn (i + 1) (settle (absorb initial key))).z

theorem drip_of_zero {c : Obj} (h : c.a = 0) : drip c = turn c := by rw [drip, settle_of_zero h]; rfl

theorem drips_eq (n : Nat) : ∀ c, c.a = 0 → (drips n c).1 = (List.range n).map (fun i => (iterate turn (i + 1) c).z) ∧
    (drips n c).2 = iterate turn n c ∧ (drips n c).2.a = 0 := by
  induction n with
  | zero => intro c h; exact ⟨rfl, rfl, h⟩
  | succ n ih =>
    intro c h
    have ht : (turn c).a = 0 := h
    obtain ⟨h1, h2, h3⟩ := ih (turn c) ht
    have e : ∀ i, iterate turn i (turn c) = iterate turn (i + 1) c := by
      intro i
      have := iterate_add turn 1 i c
      rw [Nat.add_comm 1 i] at this
      rw [this]; rfl
    unfold drips
    simp only [drip_of_zero h]
    refine ⟨?_, by rw [h2, e], h3⟩
    rw [h1, List.range_succ_eq_map, List.map_cons, List.map_map]
    congr 1

theorem iterate_iv (n : Nat) (c : Obj) : (iterate turn n c).iv = c.iv ∧ (iterate turn n c).a = c.a := by
  induction n with
  | zero => exact ⟨rfl, rfl⟩
  | succ n ih => rw [iterate_succ]; exact ih

theorem update_iv (n : Nat) (c : Obj) : (iterate update n c).iv = c.iv := by
  induction n with
  | zero => rfl
  | succ n ih => rw [iterate_succ]; exact ih

theorem shuffle_iv (c : Obj) : (shuffle c).iv = c.iv := by
  simp [shuffle, whip, crush, update_iv]

theorem settle_iv (c : Obj) : (settle c).iv = c.iv := by
  unfold settle
  split
  · exact shuffle_iv c
  · rfl

theorem calls_noiv {d : Bool} {A : Slice → Slice → Prop} {o y : Obj} {ins outs : List Bytes} (h : Calls A (call d) o ins outs y) :
    o.iv = none → outs.flatten = (List.zipWith (fun m x => if d then m - x else m + x) ins.flatten
      ((List.range ins.flatten.length).map fun i => (iterate turn (i + 1) (settle o)).z)) := by
  induction h with
  | nil => intro _; rfl
  | @cons st st' st'' m m' dst src ins outs ha h t ih =>
    intro hiv
    obtain ⟨h1, h2⟩ := call_ok h
    generalize m.read src.ptr src.len = l at h1 h2
    have hp : prepare st = st := by unfold prepare; rw [hiv]
    obtain ⟨d1, d2, d3⟩ := drips_eq l.length (settle st) (settle_a st)
    have e2 : st' = iterate turn l.length (settle st) := by rw [h2, crypt, squeeze, hp]; exact d2
    have hiv' : st'.iv = none := by rw [e2, (iterate_iv _ _).1, settle_iv, hiv]
    have hs : settle st' = iterate turn l.length (settle st) := by
      rw [e2, settle_of_zero]
      rw [(iterate_iv _ _).2, settle_a]
    have h1' : m'.read dst.ptr src.len = List.zipWith (fun m x => if d then m - x else m + x) l
        ((List.range l.length).map fun i => (iterate turn (i + 1) (settle st)).z) := by
      rw [h1, crypt, squeeze, hp, d1]
    rw [List.flatten_cons, List.flatten_cons, h1', ih hiv', hs, List.length_append, List.range_add, List.map_append, List.zipWith_append (by simp)]
    rw [List.map_map]
    have : (fun i => (iterate turn (i + 1) (iterate turn l.length (settle st))).z) =
        (fun i => (iterate turn (i + 1) (settle st)).z) ∘ (fun x => l.length + x) := by
      funext i
      simp only [Function.comp]
      rw [← iterate_add, Nat.add_assoc]
    rw [this]

theorem absorb_iv_irrel (o : Obj) (iv : Option Bytes) : ∀ i, (iterate turn i (settle { o with iv := iv })).z = (iterate turn i (settle o)).z := by
  have hu : ∀ n (c : Obj), iterate update n { c with iv := iv } = { iterate update n c with iv := iv } := by
    intro n c
    induction n with
    | zero => rfl
    | succ n ih => rw [iterate_succ, iterate_succ, ih]; rfl
  have hw : ∀ n (c : Obj), whip n { c with iv := iv } = { whip n c with iv := iv } := by
    intro n c; unfold whip; rw [hu]
  have hc : ∀ c : Obj, crush { c with iv := iv } = { crush c with iv := iv } := by
    intro c
    unfold crush
    simp only
  have hsh : ∀ c : Obj, shuffle { c with iv := iv } = { shuffle c with iv := iv } := by
    intro c; unfold shuffle; simp only [hw, hc]
  have hse : settle { o with iv := iv } = { settle o with iv := iv } := by
    unfold settle
    by_cases h0 : 0 < o.a
    · rw [if_pos h0, if_pos h0]; exact hsh o
    · rw [if_neg h0, if_neg h0]
  have ht : ∀ n (c : Obj), iterate turn n { c with iv := iv } = { iterate turn n c with iv := iv } := by
    intro n c
    induction n with
    | zero => rfl
    | succ n ih => rw [iterate_succ, iterate_succ, ih]; rfl
  intro i
  rw [hse, ht]

/-- **C136** (Spritz without an IV): byte `i` of the message, counted over all the calls, has byte `i` of the key stream added to it by Encrypt and
subtracted from it by Decrypt, however the message is cut. -/
theorem C136_spritz_stream (key : Bytes) (o : Obj) (ho : newCipher key none = .ok o) (dec : Bool) (ins outs : List Bytes) (y : Obj)
    (h : Calls Any (call dec) o ins outs y) :
    outs.flatten.length = ins.flatten.length ∧
    ∀ i, i < ins.flatten.length → outs.flatten.getD i 0 = if dec then ins.flatten.getD i 0 - keystream key i else ins.flatten.getD i 0 + keystream key i := by
  have hiv := (newCipher_good ho).2
  have hk : ∀ i, (iterate turn (i + 1) (settle o)).z = keystream key i := by
    intro i
    unfold newCipher at ho
    split at ho
    · exact absurd ho (by simp)
    · rw [← Res.ok.inj ho]
      exact absorb_iv_irrel _ none (i + 1)
  have := calls_noiv h hiv
  simp only [hk] at this
  rw [this]
  refine ⟨by simp, ?_⟩
  intro i hi
  rw [List.getD_eq_getElem _ _ (by simpa using hi), List.getD_eq_getElem _ _ hi]
  simp

/-- **C136** (Spritz without an IV): the plaintext comes back from a new object however the ciphertext is cut. -/
theorem C136_spritz_recut (key : Bytes) (o : Obj) (ho : newCipher key none = .ok o) (ins outs ins' outs' : List Bytes) (y y' : Obj)
    (he : Calls Any (call false) o ins outs y) (hcut : ins'.flatten = outs.flatten) (hd : Calls Any (call true) o ins' outs' y') :
    outs'.flatten = ins.flatten := by
  obtain ⟨h1, h2⟩ := C136_spritz_stream key o ho false ins outs y he
  obtain ⟨h3, h4⟩ := C136_spritz_stream key o ho true ins' outs' y' hd
  rw [hcut] at h3 h4
  apply List.ext_getElem (by rw [h3, h1])
  intro i hi hi'
  have e := h4 i (by rw [h1]; exact hi')
  rw [h2 i hi', List.getD_eq_getElem _ _ hi, List.getD_eq_getElem _ _ hi'] at e
  rw [e]
  simp [BitVec.add_sub_cancel]

/-- Any history can be run. -/
theorem calls_exists (d : Bool) (ins : List Bytes) : ∀ o, ∃ outs y, Calls Any (call d) o ins outs y := by
  induction ins with
  | nil => intro o; exact ⟨_, _, .nil o⟩
  | cons l ins ih =>
    intro o
    obtain ⟨outs, y, h⟩ := ih (crypt d o l).2
    have hr : (Mem.write (fun _ => 0) 0 l).read 0 l.length = l := Mem.read_write_self' _ _ _ _ rfl
    have hc := Calls.cons (A := Any) (call := call d) (st := o) (m := Mem.write (fun _ => 0) 0 l)
      (m' := (Mem.write (fun _ => 0) 0 l).write 0 (crypt d o l).1) (dst := ⟨0, l.length, l.length⟩) (src := ⟨0, l.length, l.length⟩)
      trivial (by
        rw [call, if_neg (by simp)]
        simp only
        rw [hr]) h
    simp only [hr] at hc
    exact ⟨_, _, hc⟩

/-- The hypotheses are met: an object with an IV, two calls and their decryptions. -/
example : ∃ o outs y outs' y', newCipher [1, 2, 3] (some [4, 5]) = .ok o ∧ Calls Any (call false) o [[1], [2, 3]] outs y ∧
    Calls Any (call true) o outs outs' y' := by
  obtain ⟨outs, y, h⟩ := calls_exists false [[1], [2, 3]] { absorb initial [1, 2, 3] with iv := some [4, 5] }
  obtain ⟨outs', y', h'⟩ := calls_exists true outs { absorb initial [1, 2, 3] with iv := some [4, 5] }
  exact ⟨_, outs, y, outs', y', rfl, h, h'⟩
example : ∃ o outs y, newCipher [1, 2, 3] none = .ok o ∧ Calls Any (call false) o [[1], [2, 3]] outs y := by
  obtain ⟨outs, y, h⟩ := calls_exists false [[1], [2, 3]] { absorb initial [1, 2, 3] with iv := none }
  exact ⟨_, outs, y, rfl, h⟩

/-- **C136** is violated by Spritz when one object is used in the two directions: a byte encrypted and then decrypted by the same object comes back exactly when
two consecutive bytes of the key stream are equal. -/
theorem C136_spritz_same_object_violated (key : Bytes) (o : Obj) (ho : newCipher key none = .ok o) (b : Byte) :
    (crypt true (crypt false o [b]).2 (crypt false o [b]).1).1 = [b] ↔ keystream key 0 = keystream key 1 := by
  have hiv := (newCipher_good ho).2
  have hk : ∀ i, (iterate turn (i + 1) (settle o)).z = keystream key i := by
    intro i
    unfold newCipher at ho
    split at ho
    · exact absurd ho (by simp)
    · rw [← Res.ok.inj ho]
      exact absorb_iv_irrel _ none (i + 1)
  have hp : prepare o = o := by unfold prepare; rw [hiv]
  have e1 : crypt false o [b] = ([b + keystream key 0], turn (settle o)) := by
    simp only [crypt, squeeze, hp, List.length_cons, List.length_nil, drips]
    rw [drip_of_zero (settle_a o), ← hk 0]
    rfl
  have ha : (turn (settle o)).a = 0 := settle_a o
  have hiv2 : (turn (settle o)).iv = none := by show (settle o).iv = none; rw [settle_iv, hiv]
  have hp2 : prepare (turn (settle o)) = turn (settle o) := by unfold prepare; rw [hiv2]
  have e2 : ∀ c, (crypt true (turn (settle o)) [c]).1 = [c - keystream key 1] := by
    intro c
    simp only [crypt, squeeze, hp2, List.length_cons, List.length_nil, drips]
    rw [settle_of_zero ha, drip_of_zero ha, ← hk 1]
    rfl
  rw [e1, e2]
  simp only [List.cons.injEq, and_true]
  constructor
  · intro h
    have := congrArg (fun x => x + keystream key 1 - b) h
    simp only [BitVec.sub_add_cancel] at this
    rw [BitVec.add_comm b, BitVec.add_sub_cancel, BitVec.add_comm b, BitVec.add_sub_cancel] at this
    exact this
  · intro h
    rw [h, BitVec.add_sub_cancel]

end Verif.Strm.Spritz
