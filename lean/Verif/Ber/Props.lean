import Verif.Ber.Lemmas
import Mathlib.Data.Nat.Fib.Basic
/-
C122: converting BER to DER (/repo/ber).
-/
namespace Verif.Ber
open Verif.Cipher Verif.Pub Verif.Ber.Spec

/-! ### Correct results -/

/-- A BER encoding whose lengths are plain and whose elements of indefinite length are not empty is turned into the DER
encoding of the same value, whatever follows it. Missing: the other BER encodings (`C122_leading_zero_violated`,
`C122_empty_violated`). -/
theorem C122_ber_partial {t : Tree} {b : Bytes} (rest : Bytes) (h : PlainBer t b) (hs : (der t).length < 2 ^ 63) :
    Ber2der (b ++ rest) = .ok (der t) := by
  have h2 := Enc.two h
  rw [Ber2der, if_neg (by simp; intro hh; subst hh; simp at h2), readObject_ok (post := rest) h (by simp) (by simp; omega)]
  simp only [Res.bind]
  rw [encodeTo_toObj t hs]

mutual
theorem plain_ber {t : Tree} {b : Bytes} (h : Enc PlainLen False t b) : Enc LenOctets True t b := by
  match h with
  | .prim ht hl => exact .prim ht (plain_len hl)
  | .cons ht hk hl => exact .cons ht (plain_bers hk) (plain_len hl)
  | .indef ht hk hz he => exact .indef ht (plain_bers hk) hz (fun _ => trivial)
theorem plain_bers {t : List Tree} {b : Bytes} (h : Encs PlainLen False t b) : Encs LenOctets True t b := by
  match h with
  | .nil => exact .nil
  | .cons h1 h2 => exact .cons (plain_ber h1) (plain_bers h2)
theorem plain_len {n : Nat} {l : Bytes} (h : PlainLen n l) : LenOctets n l := by
  rcases h with h | ⟨k, h1, h2, h3, _, _, h4⟩
  · exact .inl h
  · exact .inr ⟨k, h1, by omega, h3, h4⟩
end

/-- The encodings `C122_ber_partial` speaks of are BER encodings. -/
theorem C122_plain {t : Tree} {b : Bytes} (h : PlainBer t b) : Ber t b := plain_ber h

/-- DER is left as it is. -/
theorem C122_der {t : Tree} (rest : Bytes) (h : Wf t) (hs : (der t).length < 2 ^ 31) : Ber2der (der t ++ rest) = .ok (der t) :=
  C122_ber_partial rest (der_plain t h hs) (by omega)

theorem encodeLength_len (n : Nat) : (encodeLength n).length = (derLen n).length := by
  rw [encodeLength, derLen]
  by_cases hn : n < 128
  · rw [if_neg (by omega), if_pos hn]
  · rw [if_pos (by omega), if_neg hn, marshalLongLength, shift_range, lengthLength_eq n (by omega)]
    simp

mutual
theorem encodeTo_len : ∀ t : Tree, (encodeTo (toObj t)).length = (der t).length
  | .prim t c => by simp only [toObj, encodeTo, der, List.length_append, encodeLength_len]
  | .cons t ks => by simp only [toObj, encodeTo, der, List.length_append, encodeLength_len, encodeAll_len ks]
theorem encodeAll_len : ∀ ts : List Tree, (encodeAll (toObjs ts)).length = (ders ts).length
  | [] => by simp [toObjs, encodeAll, ders]
  | t :: ts => by simp only [toObjs, encodeAll, ders, List.length_append, encodeTo_len t, encodeAll_len ts]
end

/-- Whatever the input, a result (a slice, so shorter than 2^63) is the DER encoding of some value. -/
theorem C122_sound {b d : Bytes} (h : Ber2der b = .ok d) (hs : d.length < 2 ^ 63) : ∃ t, Wf t ∧ d = der t := by
  rw [Ber2der] at h
  split at h
  · cases h
  · rcases (read_cases b (2 * b.length + 2)).1 0 (by omega) (by omega) with ⟨h1, _⟩ | h1 | ⟨t, o', h1, h2, _⟩
    · rw [h1] at h; cases h
    · rw [h1] at h; cases h
    · rw [h1] at h
      simp only [Res.bind, Res.ok.injEq] at h
      have := encodeTo_len t
      rw [h] at this
      refine ⟨t, h2, ?_⟩
      rw [← h, encodeTo_toObj t (by omega)]

/-- Converting a result again does not change it. -/
theorem C122_idempotent {b d : Bytes} (h : Ber2der b = .ok d) (hs : d.length < 2 ^ 31) : Ber2der d = .ok d := by
  obtain ⟨t, h1, rfl⟩ := C122_sound h (by omega)
  simpa using C122_der [] h1 hs

/-- An outer element of indefinite length holding an integer with a two-octet length and an element of indefinite length. -/
example : PlainBer (.cons [0x30#8] [.prim [0x02#8] [5#8], .cons [0xbf#8, 0x81#8, 0x01#8] [.prim [0x04#8] [1#8, 2#8]]])
    [0x30#8, 0x80#8, 0x02#8, 0x81#8, 0x01#8, 5#8, 0xbf#8, 0x81#8, 0x01#8, 0x80#8, 0x04#8, 2#8, 1#8, 2#8, 0#8, 0#8, 0#8, 0#8] := by
  have t30 : TagOctets true [0x30#8] := ⟨_, _, rfl, by decide, .inl ⟨by decide, rfl⟩⟩
  have t02 : TagOctets false [0x02#8] := ⟨_, _, rfl, by decide, .inl ⟨by decide, rfl⟩⟩
  have t04 : TagOctets false [0x04#8] := ⟨_, _, rfl, by decide, .inl ⟨by decide, rfl⟩⟩
  have tbf : TagOctets true [0xbf#8, 0x81#8, 0x01#8] := ⟨_, _, rfl, by decide, .inr ⟨by decide, [0x81#8], 0x01#8, rfl, by decide, by decide⟩⟩
  refine .indef (b := [0x02#8, 0x81#8, 0x01#8, 5#8, 0xbf#8, 0x81#8, 0x01#8, 0x80#8, 0x04#8, 2#8, 1#8, 2#8, 0#8, 0#8]) t30 ?_ (by simp [Tree.tag]) (by simp)
  refine .cons (b := [0x02#8, 0x81#8, 0x01#8, 5#8]) (.prim (l := [0x81#8, 0x01#8]) t02 (.inr ⟨1, by decide⟩)) ?_
  refine .cons (b := [0xbf#8, 0x81#8, 0x01#8, 0x80#8, 0x04#8, 2#8, 1#8, 2#8, 0#8, 0#8]) (.indef (b := [0x04#8, 2#8, 1#8, 2#8]) tbf ?_ (by simp [Tree.tag]) (by simp)) .nil
  exact .cons (b := [0x04#8, 2#8, 1#8, 2#8]) (.prim (l := [2#8]) t04 (.inl (by decide))) .nil

/-! ### No hang, and panics only on long identifiers -/

/-- The call ends; without an identifier octet whose five low bits are set it does not panic. Missing: inputs with such an
octet can panic (`C122_panic_violated`). -/
theorem C122_total_partial (b : Bytes) : Ber2der b ≠ .hang ∧ (Ber2der b = .panic → ∃ x ∈ b, x &&& 0x1f#8 = 0x1f#8) := by
  rw [Ber2der]
  split
  · exact ⟨by simp, by simp⟩
  · rcases (read_cases b (2 * b.length + 2)).1 0 (by omega) (by omega) with ⟨h1, h2⟩ | h1 | ⟨t, o', h1, h2, _⟩
    · rw [h1]; exact ⟨by simp [Res.bind], fun _ => h2⟩
    · rw [h1]; exact ⟨by simp [Res.bind], by simp [Res.bind]⟩
    · rw [h1]; exact ⟨by simp [Res.bind], by simp [Res.bind]⟩

/-- Two octets from a peer crash the program: an identifier that never ends, or one followed by no length. -/
theorem C122_panic_violated : Ber2der [0x1f#8, 0x80#8] = .panic ∧ Ber2der [0x1f#8, 0x01#8] = .panic := by
  constructor <;> rfl

/-- Every identifier in long form that the input ends with crashes it, not only these two. -/
theorem C122_panic_all (b : Byte) (hb : b &&& 0x1f#8 = 0x1f#8) (hi : Bytes) (hh : ∀ x ∈ hi, 128 ≤ x.toNat) (last : Byte)
    (hl : last.toNat < 128) : Ber2der (b :: (hi ++ [last])) = .panic := by
  have ht : TagOctets (decide (b &&& 0x20#8 ≠ 0#8)) (b :: (hi ++ [last])) :=
    ⟨b, _, rfl, by simp, .inr ⟨hb, hi, last, rfl, hh, hl⟩⟩
  obtain ⟨b', h0, _, hte⟩ := tagEndOf_ok (ber := b :: (hi ++ [last])) (s := []) (o := 0) (by simp) ht
  rw [List.getElem?_cons_zero, Option.some.injEq] at h0
  subst h0
  rw [Ber2der, if_neg (by simp), show 2 * (b :: (hi ++ [last])).length + 2 = 2 * (b :: (hi ++ [last])).length + 1 + 1 from rfl,
    readObject, readHeader, if_neg (by simp), List.getElem?_cons_zero]
  simp only
  rw [if_neg (by simp), hte]
  simp only [Res.bind]
  rw [readLen, List.getElem?_eq_none (by simp)]

/-- An empty element of indefinite length is valid BER and is refused. -/
theorem C122_empty_violated : Ber (.cons [0x30#8] []) [0x30#8, 0x80#8, 0#8, 0#8] ∧ Ber2der [0x30#8, 0x80#8, 0#8, 0#8] = .err := by
  refine ⟨.indef (b := []) ⟨_, _, rfl, by decide, .inl ⟨by decide, rfl⟩⟩ .nil (by simp) (fun _ => trivial), ?_⟩
  rfl

/-- A length with a leading zero octet is valid BER and is refused. -/
theorem C122_leading_zero_violated : Ber (.prim [0x04#8] [7#8]) [0x04#8, 0x82#8, 0#8, 1#8, 7#8] ∧
    Ber2der [0x04#8, 0x82#8, 0#8, 1#8, 7#8] = .err := by
  refine ⟨.prim (l := [0x82#8, 0#8, 1#8]) ⟨_, _, rfl, by decide, .inl ⟨by decide, rfl⟩⟩ (.inr ⟨2, by decide⟩), ?_⟩
  rfl

/-- An element that runs past the end of the element it is in is accepted: the inner string is one octet longer than its
container, and what comes out is not the input's value. -/
theorem C122_overrun_violated : Ber2der [0x30#8, 2#8, 0x04#8, 1#8, 9#8] = .ok [0x30#8, 3#8, 0x04#8, 1#8, 9#8] := by
  rfl

/-! ### The result can be exponentially longer than the input -/

/-- `n` times the four octets 30 06 30 02, then three empty strings. -/
def bomb : Nat → Bytes
  | 0 => [4#8, 0#8, 4#8, 0#8, 4#8, 0#8]
  | n + 1 => [0x30#8, 6#8, 0x30#8, 2#8] ++ bomb n

theorem bomb_length : ∀ n, (bomb n).length = 4 * n + 6
  | 0 => rfl
  | n + 1 => by rw [bomb, List.length_append, bomb_length n]; simp; omega

/-- what is read at the start of `bomb n` -/
def bombA : Nat → Tree
  | 0 => .prim [4#8] []
  | 1 => .cons [0x30#8] [.cons [0x30#8] [.prim [4#8] []], .prim [4#8] []]
  | n + 2 => .cons [0x30#8] [.cons [0x30#8] [bombA (n + 1)], .cons [0x30#8] [bombA n]]

theorem len_plain {n : Nat} (h : n < 128) : PlainLen n [BitVec.ofNat 8 n] := .inl ⟨h, rfl⟩
theorem tag30 : TagOctets true [0x30#8] := ⟨_, _, rfl, by decide, .inl ⟨by decide, rfl⟩⟩
theorem tag04 : TagOctets false [0x04#8] := ⟨_, _, rfl, by decide, .inl ⟨by decide, rfl⟩⟩

theorem read_nil {ber s : Bytes} {o f : Nat} (h : ber.drop o = [4#8, 0#8] ++ s) (hf : 0 < f) :
    readObject f ber o = .ok (toObj (.prim [4#8] []), o + 2) := by
  match f, hf with
  | f + 1, _ =>
    have hd : ber.drop o = [4#8] ++ ([0#8] ++ s) := h
    rw [readObject, readHeader_ok (n := 0) hd tag04 (len_plain (by omega)) (by simp)]
    simp only [Res.bind]
    rw [if_pos trivial, sub_eq hd]
    simp [sub, toObj]

theorem bomb_read {ber : Bytes} : ∀ (n o f : Nat), ber.drop o = bomb n → 8 * n + 8 ≤ f →
    readObject f ber o = .ok (toObj (bombA n), o + (if n = 0 then 2 else 8))
  | 0, o, f, h, hf => by
    rw [read_nil (s := [4#8, 0#8, 4#8, 0#8]) h (by omega)]; rfl
  | n + 1, o, f + 5, h, hf => by
    have hd : ber.drop o = [0x30#8] ++ ([6#8] ++ ([0x30#8, 2#8] ++ bomb n)) := h
    have hd1 : ber.drop (o + 2) = [0x30#8] ++ ([2#8] ++ bomb n) := drop_append (a := [0x30#8, 6#8]) h
    have hd2 : ber.drop (o + 2 + 2) = bomb n := drop_append (a := [0x30#8, 2#8]) (b := bomb n) hd1
    have hl := bomb_length n
    have inner := bomb_read n (o + 2 + 2) (f + 1) hd2 (by omega)
    -- the first element, whose own element may run past it
    have first : readObject (f + 3) ber (o + 2) = .ok (toObj (.cons [0x30#8] [bombA n]), o + 6) := by
      rw [readObject, readHeader_ok (n := 2) hd1 tag30 (len_plain (by omega)) (by omega)]
      simp only [Res.bind, List.length_cons, List.length_nil, Nat.zero_add]
      have s1 : sub ber (o + 2) (o + 2 + 1) = [0x30#8] := sub_eq hd1
      rw [if_neg (by simp), s1, show o + 2 + 1 + 1 = o + 2 + 2 from rfl, readSubs, if_pos (.inl (by omega)), inner]
      simp only [Res.bind]
      rw [if_neg (by simp), readSubs, if_neg (by split <;> simp)]
      simp [toObj, toObjs]
    have hd3 : ber.drop (o + 6) = (bomb n).drop 2 := by rw [show o + 6 = o + 2 + 2 + 2 from rfl, ← List.drop_drop, hd2]
    have second : ∃ t, bombA (n + 1) = .cons [0x30#8] [.cons [0x30#8] [bombA n], t] ∧
        ∃ o', readObject (f + 2) ber (o + 6) = .ok (toObj t, o') ∧ o + 8 ≤ o' := by
      match n, hd3, inner with
      | 0, hd3, _ =>
        exact ⟨_, rfl, _, read_nil (s := [4#8, 0#8]) hd3 (by omega), by omega⟩
      | n + 1, hd3, _ =>
        refine ⟨.cons [0x30#8] [bombA n], rfl, o + 10, ?_, by omega⟩
        have hd4 : ber.drop (o + 6) = [0x30#8] ++ ([2#8] ++ bomb n) := hd3
        have hd5 : ber.drop (o + 6 + 2) = bomb n := drop_append (a := [0x30#8, 2#8]) (b := bomb n) hd4
        have hl' := bomb_length n
        rw [readObject, readHeader_ok (n := 2) hd4 tag30 (len_plain (by omega)) (by omega)]
        simp only [Res.bind, List.length_cons, List.length_nil, Nat.zero_add]
        have s1 : sub ber (o + 6) (o + 6 + 1) = [0x30#8] := sub_eq hd4
        rw [if_neg (by simp), s1, show o + 6 + 1 + 1 = o + 6 + 2 from rfl]
        match f, hf with
        | f + 1, hf =>
          rw [readSubs, if_pos (.inl (by omega)), bomb_read n (o + 6 + 2) (f + 1) hd5 (by omega)]
          simp only [Res.bind]
          rw [if_neg (by simp), readSubs, if_neg (by split <;> simp)]
          simp [toObj, toObjs]
    obtain ⟨t, ht, o', h2, ho'⟩ := second
    rw [ht, readObject, readHeader_ok (n := 6) hd tag30 (len_plain (by omega)) (by simp; omega)]
    simp only [Res.bind, List.length_cons, List.length_nil, Nat.zero_add]
    have s1 : sub ber o (o + 1) = [0x30#8] := sub_eq hd
    rw [if_neg (by simp), s1, show o + 1 + 1 = o + 2 from rfl, readSubs, if_pos (.inl (by omega)), first]
    simp only [Res.bind]
    rw [if_neg (by simp), readSubs, if_pos (.inl (by omega)), h2]
    simp only [Res.bind]
    rw [if_neg (by simp), readSubs, if_neg (by simp; omega)]
    simp [toObj, toObjs]

theorem bomb_size : ∀ n, 2 * Nat.fib (n + 1) ≤ (der (bombA n)).length
  | 0 => by decide
  | 1 => by decide
  | n + 2 => by
    have h1 := bomb_size n
    have h2 := bomb_size (n + 1)
    rw [show n + 2 + 1 = (n + 1) + 2 from rfl, Nat.fib_add_two]
    simp only [bombA, der, ders, List.length_append, List.length_nil]
    omega

/-- For every `n` there is an input of `4 n + 6` octets for which the call succeeds and returns at least `2 fib (n + 1)`
octets: time and memory grow exponentially with the input. -/
theorem C122_blowup_violated (n : Nat) :
    (bomb n).length = 4 * n + 6 ∧ ∃ d, Ber2der (bomb n) = .ok d ∧ 2 * Nat.fib (n + 1) ≤ d.length := by
  have hl := bomb_length n
  refine ⟨hl, encodeTo (toObj (bombA n)), ?_, ?_⟩
  · rw [Ber2der, if_neg (by omega), bomb_read n 0 _ (by simp) (by omega)]
    rfl
  · rw [encodeTo_len]; exact bomb_size n

/-- For 406 octets of input the result would be longer than 2^60 octets. -/
example : 2 ^ 60 < 2 * Nat.fib (100 + 1) := by decide +kernel

end Verif.Ber
