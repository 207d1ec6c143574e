import Verif.Hash.StreebogFast
import Verif.Go.Heap
/-
C82: GOST R 34.11-2012 (hash/gost/gost34112012, gost34112012256, gost34112012512).
-/
namespace Verif.Hash
open Verif.Cipher

theorem streebog_history (size : Nat) (ops : List Op) (d : Streebog.D) (M : Bytes) (h : Streebog.Holds size d M) :
    ∃ d', Streebog.obj.run d ops = .ok (d', expected (Streebog.Spec.hash 64 size) M ops) ∧ Streebog.Holds size d' (written M ops) :=
  Obj.run_of_sim Streebog.obj (Streebog.Spec.hash 64 size) (Streebog.Holds size) (fun d M x h => Streebog.write_holds size d M x h)
    (fun d M p h => ⟨d, by simp only [Streebog.obj, Streebog.sum, Streebog.checkSum_eq size d M h, Res.bind_ok], h⟩)
    (fun d _ h => by
      have e : Streebog.obj.reset d = ⟨size, Streebog.iv size, []⟩ := by simp only [Streebog.obj, Streebog.reset, h.sz]
      rw [e]; exact Streebog.holds_iv size) ops d M h

/-- `New` takes the sizes 32 and 64 and no other. -/
theorem C82_streebog_sizes (size : Nat) : (∃ d, Streebog.new size = .ok d) ↔ size = 32 ∨ size = 64 := by
  rw [Streebog.new]
  split
  · constructor
    · rintro ⟨d, h⟩; cases h
    · intro; omega
  · exact ⟨fun _ => by omega, fun _ => ⟨_, rfl⟩⟩

/-- Every history on a new object returns the RFC 6986 digests of the bytes written, as long as fewer than `2^61` bytes
(`2^64` bits) are written between two `Reset`s. -/
theorem C82_streebog_every_history (size : Nat) (d : Streebog.D) (hn : Streebog.new size = .ok d) (ops : List Op)
    (hb : within (2 ^ 61) [] ops) : Streebog.obj.outputs d ops = some (expected (Streebog.Spec.streebog size) [] ops) := by
  rw [Streebog.new] at hn
  split at hn
  · cases hn
  · cases hn
    obtain ⟨t, e, _⟩ := streebog_history size ops _ [] (Streebog.holds_iv size)
    simp only [Obj.outputs, e]
    rw [expected_congr _ _ _ (fun M hM => Streebog.hash_counter size M hM) ops [] hb]

/-- Without that bound the same holds of the function that keeps the bit counter modulo `2^64`. -/
theorem C82_streebog_every_history_any_length (size : Nat) (d : Streebog.D) (hn : Streebog.new size = .ok d) (ops : List Op) :
    Streebog.obj.outputs d ops = some (expected (Streebog.Spec.hash 64 size) [] ops) := by
  rw [Streebog.new] at hn
  split at hn
  · cases hn
  · cases hn
    obtain ⟨t, e, _⟩ := streebog_history size ops _ [] (Streebog.holds_iv size)
    simp only [Obj.outputs, e]

/-- "012…9012" (63 bytes) of RFC 6986 section 10.1 with 256 bits, "foobar" in two pieces. -/
example : expected (Streebog.Spec.streebog 32) [] [.write [0x66, 0x6f, 0x6f], .write [0x62, 0x61, 0x72], .sum [], .reset,
      .write ((List.range 63).map fun i => BitVec.ofNat 8 (0x30 + i % 10)), .sum []] =
    [hx 32 0xe3c9fd89226d93b489a9fe27d686806e24a514e3787bca053c698ec4616ceb78,
      leBytes 32 0x00557be5e584fd52a449b16b0251d05d27f94ab76cbaa6da890b59d8ef1e159d] := by
  rw [show Streebog.Spec.streebog 32 = Streebog.Fast.hash 512 32 from funext fun M => Streebog.Fast.hash_eq 512 32 M]; decide +kernel

example : within (2 ^ 61) [] [.write [0x66, 0x6f, 0x6f], .write [0x62, 0x61, 0x72], .sum [], .reset, .write [1], .sum []] := by
  simp [within]

/-! ### saving and restoring -/

theorem drop_app (A B : Bytes) (n : Nat) (h : A.length = n) : (A ++ B).drop n = B := by rw [← h, List.drop_left]
theorem take_app (A B : Bytes) (n : Nat) (h : A.length = n) : (A ++ B).take n = A := by rw [← h, List.take_left]

theorem streebog_restore (size : Nat) (hs : size = 32 ∨ size = 64) (d other : Streebog.D) (M : Bytes) (h : Streebog.Holds size d M) :
    Streebog.unmarshal other (Streebog.marshal d) = .ok d := by
  have l1 : d.st.hsh.length = 64 := by rw [h.good.h, h.good.hl]
  have l2 : d.st.chk.length = 64 := by rw [h.good.chk, leBytes_length]
  have l3 := h.good.tl
  have e1 : Streebog.marshal d = Streebog.name ++ ([BitVec.ofNat 8 d.size] ++ ((leBytes 8 d.st.n.toNat).reverse ++ (d.st.hsh ++ (d.st.chk ++ (d.st.tmp ++ d.buf))))) := by
    simp [Streebog.marshal]
  have ln : Streebog.name.length = 8 := rfl
  have d8 : (Streebog.marshal d).drop 8 = [BitVec.ofNat 8 d.size] ++ ((leBytes 8 d.st.n.toNat).reverse ++ (d.st.hsh ++ (d.st.chk ++ (d.st.tmp ++ d.buf)))) := by
    rw [e1, drop_app _ _ 8 ln]
  have d9 : (Streebog.marshal d).drop 9 = (leBytes 8 d.st.n.toNat).reverse ++ (d.st.hsh ++ (d.st.chk ++ (d.st.tmp ++ d.buf))) := by
    rw [show 9 = 8 + 1 from rfl, ← List.drop_drop, d8, drop_app _ _ 1 rfl]
  have d17 : (Streebog.marshal d).drop 17 = d.st.hsh ++ (d.st.chk ++ (d.st.tmp ++ d.buf)) := by
    rw [show 17 = 9 + 8 from rfl, ← List.drop_drop, d9, drop_app _ _ 8 (by simp)]
  have d81 : (Streebog.marshal d).drop 81 = d.st.chk ++ (d.st.tmp ++ d.buf) := by
    rw [show 81 = 17 + 64 from rfl, ← List.drop_drop, d17, drop_app _ _ 64 l1]
  have d145 : (Streebog.marshal d).drop 145 = d.st.tmp ++ d.buf := by
    rw [show 145 = 81 + 64 from rfl, ← List.drop_drop, d81, drop_app _ _ 64 l2]
  have d209 : (Streebog.marshal d).drop 209 = d.buf := by
    rw [show 209 = 145 + 64 from rfl, ← List.drop_drop, d145, drop_app _ _ 64 l3]
  have g8 : (Streebog.marshal d).getD 8 0 = BitVec.ofNat 8 d.size := by
    have h0 := congrArg (fun l => l.getD 0 0) d8
    simpa [List.getD_eq_getElem?_getD] using h0
  have t8 : (Streebog.marshal d).take 8 = Streebog.name := by rw [e1, take_app _ _ 8 ln]
  have hl : ¬ (Streebog.marshal d).length < 209 := by rw [e1]; simp [l1, l2, l3, ln]; omega
  rw [Streebog.unmarshal, if_neg hl, if_neg (by simp [t8]), g8, d9, d17, d81, d145, d209, take_app _ _ 8 (by simp), take_app _ _ 64 l1, take_app _ _ 64 l2, take_app _ _ 64 l3,
    List.reverse_reverse, leN_leBytes]
  have hz : (BitVec.ofNat 8 d.size).toNat = d.size := by
    rw [h.sz, BitVec.toNat_ofNat]; rcases hs with h | h <;> subst h <;> rfl
  have hn : BitVec.ofNat 64 (d.st.n.toNat % 256 ^ 8) = d.st.n := by
    rw [show 256 ^ 8 = 2 ^ 64 by decide, Nat.mod_eq_of_lt d.st.n.isLt, BitVec.ofNat_toNat, BitVec.setWidth_eq]
  rw [hz, hn]

/-- After any history, `UnmarshalBinary` of what `MarshalBinary` returns puts any object into the same state: every
further history returns the digests of the bytes written before and after. -/
theorem C82_streebog_save_restore (size : Nat) (d : Streebog.D) (hn : Streebog.new size = .ok d) (before after : List Op) (other : Streebog.D) :
    ∃ d1 outs d2, Streebog.obj.run d before = .ok (d1, outs) ∧ Streebog.unmarshal other (Streebog.marshal d1) = .ok d2 ∧
      Streebog.obj.outputs d2 after = some (expected (Streebog.Spec.hash 64 size) (written [] before) after) := by
  have hs := (C82_streebog_sizes size).1 ⟨d, hn⟩
  rw [Streebog.new] at hn
  split at hn
  · cases hn
  · cases hn
    obtain ⟨t, e, h⟩ := streebog_history size before _ [] (Streebog.holds_iv size)
    obtain ⟨t2, e2, _⟩ := streebog_history size after t _ h
    exact ⟨t, _, t, e, streebog_restore size hs t other _ h, by simp only [Obj.outputs, e2]⟩

theorem ok_check {α : Type} (r : Res α) (p : α → Bool) (h : (match r with | .ok a => p a | _ => false) = true) :
    ∃ a, r = .ok a ∧ p a = true := by
  cases r with
  | ok a => exact ⟨a, rfl, h⟩
  | _ => cases h

/-- A restored object may panic: 64 zero bytes after the fixed part are taken as pending input, and `Sum` writes behind
them.  `UnmarshalBinary` had returned no error. -/
theorem C82_streebog_restore_malformed_violated : ∃ (data : Bytes) (other d : Streebog.D),
    Streebog.unmarshal other data = .ok d ∧ Streebog.sum d [] = .panic := by
  obtain ⟨d, h1, h2⟩ := ok_check (Streebog.unmarshal ⟨32, Streebog.iv 32, []⟩ (Streebog.name ++ List.replicate 265 0#8))
    (fun d => decide (Streebog.checkSum d = .panic)) (by decide +kernel)
  exact ⟨_, _, d, h1, by rw [Streebog.sum, of_decide_eq_true h2]; rfl⟩

/-! ### the restored object shares memory with the saved bytes -/

namespace Streebog

/-- A digest whose `buf` is a slice of memory. -/
structure DM where
  size : Nat
  st : St
  buf : Slice

def DM.view (h : Heap) (d : DM) : D := ⟨d.size, d.st, h.bytes d.buf⟩

/-- hash/gost/gost34112012/hash.go:452-479 (`UnmarshalBinary`) with `h.buf = data[idx:]` as a slice. -/
def unmarshalMem (h : Heap) (other : D) (data : Slice) : Res DM := do
  let d ← unmarshal other (h.bytes data)
  .ok ⟨d.size, d.st, ⟨data.ptr + 209, data.len - 209, data.cap - 209⟩⟩

/-- hash/gost/gost34112012/hash.go:309-323 (`Write`) when no block gets full: only the append. -/
def writeMemShort (slack : Nat → Nat) (h : Heap) (d : DM) (p : Bytes) : Heap × DM :=
  let r := appendM slack h d.buf p
  (r.1, { d with buf := r.2 })

/-- The saved bytes of a new 256-bit digest into which one byte was written. -/
def saved1 : Bytes := marshal ⟨32, iv 32, [7]⟩

def heap1 : Heap := ⟨fun i => saved1.getD i 0, 300⟩
def data1 : Slice := ⟨0, 210, 300⟩
def heap2 : Heap := storeM heap1 data1 209 0#8

theorem view1 : ∃ d, unmarshalMem heap1 ⟨32, iv 32, []⟩ data1 = .ok d ∧ decide (d.size = 32 ∧ d.st.n = (iv 32).n ∧ d.st.hsh = (iv 32).hsh ∧
    d.st.chk = (iv 32).chk ∧ d.st.tmp = (iv 32).tmp ∧ heap1.bytes d.buf = [7] ∧ heap2.bytes d.buf = [0]) = true :=
  ok_check _ (fun d : DM => decide (d.size = 32 ∧ d.st.n = (iv 32).n ∧ d.st.hsh = (iv 32).hsh ∧
    d.st.chk = (iv 32).chk ∧ d.st.tmp = (iv 32).tmp ∧ heap1.bytes d.buf = [7] ∧ heap2.bytes d.buf = [0])) (by decide +kernel)

theorem hash_one (b : Byte) : checkSum ⟨32, iv 32, [b]⟩ = .ok (Fast.hash 64 32 [b]) := by
  rw [checkSum_eq 32 _ [b] ⟨rfl, by simpa [fullBlocks] using iv_good 32, by simp [tailOf]⟩, Fast.hash_eq]

def test1 : Bool := decide (Fast.hash 64 32 [7] ≠ Fast.hash 64 32 [0])
theorem test1_true : test1 = true := by decide +kernel

theorem alias1 : ∃ d, unmarshalMem heap1 ⟨32, iv 32, []⟩ data1 = .ok d ∧ checkSum (d.view heap1) ≠ checkSum (d.view heap2) := by
  refine view1.elim fun d h => ⟨d, h.1, ?_⟩
  obtain ⟨h1, h2, h3, h4, h5, h6, h7⟩ := of_decide_eq_true h.2
  have e1 : d.view heap1 = ⟨32, iv 32, [7]⟩ := by
    rw [DM.view, h6, h1]
    rw [show d.st = iv 32 from by cases hd : d.st; rw [hd] at h2 h3 h4 h5; simp only at h2 h3 h4 h5; rw [h2, h3, h4, h5]]
  have e2 : d.view heap2 = ⟨32, iv 32, [0]⟩ := by
    rw [DM.view, h7, h1]
    rw [show d.st = iv 32 from by cases hd : d.st; rw [hd] at h2 h3 h4 h5; simp only at h2 h3 h4 h5; rw [h2, h3, h4, h5]]
  rw [e1, e2, hash_one, hash_one]
  intro hh
  exact of_decide_eq_true test1_true (Res.ok.inj hh)

end Streebog

/-- Contrary to `encoding.BinaryUnmarshaler`, the object keeps the caller's slice: when the caller reuses it, the
digest of the restored object changes, although nothing was written to the object. -/
theorem C82_streebog_restore_aliases_violated : ∃ (h h' : Heap) (other : Streebog.D) (data : Slice) (d : Streebog.DM),
    data.Valid h ∧ Streebog.unmarshalMem h other data = .ok d ∧ h' = storeM h data 209 0#8 ∧
    Streebog.checkSum (d.view h) ≠ Streebog.checkSum (d.view h') := by
  have hv : Streebog.data1.Valid Streebog.heap1 := ⟨by decide, by decide⟩
  exact Streebog.alias1.elim fun d h => ⟨Streebog.heap1, Streebog.heap2, ⟨32, Streebog.iv 32, []⟩, Streebog.data1, d, hv, h.1, rfl,
    h.2⟩

/-- The other direction: a `Write` to the restored object changes the caller's memory behind the saved bytes. -/
theorem C82_streebog_restore_clobbers_violated : ∃ (h : Heap) (other : Streebog.D) (data : Slice) (d : Streebog.DM),
    data.Valid h ∧ Streebog.unmarshalMem h other data = .ok d ∧
    ∀ slack, (Streebog.writeMemShort slack h d [9]).1.mem (data.ptr + data.len) ≠ h.mem (data.ptr + data.len) := by
  obtain ⟨d, h1, h2⟩ := ok_check (Streebog.unmarshalMem Streebog.heap1 ⟨32, Streebog.iv 32, []⟩ Streebog.data1)
    (fun d => decide (d.buf = ⟨209, 1, 91⟩)) (by decide +kernel)
  refine ⟨_, _, _, d, ⟨by decide, by decide⟩, h1, fun slack => ?_⟩
  have hb := of_decide_eq_true h2
  have hm : (Streebog.writeMemShort slack Streebog.heap1 d [9]).1.mem 210 = 9#8 := by
    simp only [Streebog.writeMemShort, hb, appendM]
    rfl
  have h0 : Streebog.heap1.mem 210 = 0#8 := by decide +kernel
  show (Streebog.writeMemShort slack Streebog.heap1 d [9]).1.mem 210 ≠ Streebog.heap1.mem 210
  rw [hm, h0]; decide

end Verif.Hash
