import Verif.Hash.Md2Lemmas
import Verif.Hash.Sm3Lemmas
import Verif.Hash.Has160Lemmas
import Verif.Hash.BeltLemmas
/-
C76 to C79: the hash functions hash/md2, hash/sm3, hash/has160 and hash/belt compute the standardised function of the
bytes written, whatever the history of `Write`, `Sum` and `Reset` calls.
-/
namespace Verif.Hash
open Verif.Cipher

theorem copyInto_whole (n : Nat) (b : Bytes) (h : b.length = n) : copyInto (List.replicate n (0 : Byte)) b = b := by
  rw [copyInto, List.length_replicate, ← h, List.take_length, List.drop_eq_nil_of_le (by simp), List.append_nil]

/-! ### C76: MD2 -/

/-- On a new object every sequence of calls returns, without panic, what RFC 1319 says of the bytes written since the
last `Reset`. -/
theorem C76_md2_every_history (ops : List Op) : Md2.obj.outputs Md2.new ops = some (expected Md2.Spec.md2 [] ops) := by
  obtain ⟨d, e, _⟩ := Obj.run_of_sim Md2.obj Md2.Spec.md2 (Holds 16 Md2.block Md2.iv)
    (fun d M x h => bufWrite_holds 16 (by decide) _ _ d M x h)
    (fun d M p h => ⟨d, by simp only [Md2.obj, Md2.sum, Md2.checkSum_eq d M h, Res.bind_ok], h⟩)
    (fun _ _ _ => holds_init 16 _ _ _ rfl) ops Md2.new [] (holds_init 16 _ _ _ rfl)
  simp only [Obj.outputs, e]

/-- The one-shot function. -/
theorem C76_md2_sum_data (M : Bytes) : Md2.sumData M = .ok (Md2.Spec.md2 M) := by
  obtain ⟨d, e, h⟩ := bufWrite_holds 16 (by decide) Md2.block Md2.iv Md2.new [] M (holds_init 16 _ _ _ rfl)
  have l : (Md2.Spec.md2 M).length = 16 := by
    have h1 := Md2.absorb_good (Md2.Spec.pad M ++ Md2.Spec.checksum (Md2.Spec.pad M))
    rw [Md2.Spec.md2, ← h1.2.1, List.length_take, h1.1]; rfl
  rw [List.nil_append] at h
  simp only [Md2.sumData, Md2.write, e, Res.bind_ok, Md2.sum, Md2.checkSum_eq d M h, List.nil_append, copyInto_whole _ _ l]

/-- The answer of the package's own test vector, through a history that splits the message and asks twice. -/
example : expected Md2.Spec.md2 [] [.write [0x6e, 0x6f], .sum [], .reset, .write [0x6e, 0x6f, 0x6e, 0x63], .write [0x65, 0x2d, 0x61, 0x73, 0x64, 0x66, 0x67],
    .sum [1]] = [Md2.Spec.md2 [0x6e, 0x6f], 1 :: hx 16 0xb964b13bcf98269d49356894e7849374] := by decide +kernel

/-! ### C77: SM3 -/

theorem sm3_len (v : Sm3.Spec.V) : (Sm3.Spec.toBytes v).length = 32 := by
  obtain ⟨a, b, c, d, e, f, g, i⟩ := v
  simp [Sm3.Spec.toBytes]

theorem sm3_length (M : Bytes) : (Sm3.Spec.sm3 M).length = 32 := sm3_len ((fullBlocks 64 (mdPad (hx 8 (8 * M.length)) M)).foldl Sm3.Spec.CF Sm3.Spec.IV)

theorem sm3_new : Sm3.Holds Sm3.new [] := holds_init 64 _ _ _ rfl

theorem sm3_history (ops : List Op) (d : Sm3.D) (M : Bytes) (h : Sm3.Holds d M) :
    ∃ d', Sm3.obj.run d ops = .ok (d', expected Sm3.Spec.sm3 M ops) ∧ Sm3.Holds d' (written M ops) :=
  Obj.run_of_sim Sm3.obj Sm3.Spec.sm3 Sm3.Holds (fun d M x h => Sm3.write_holds d M x h)
    (fun d M p h => ⟨d, by simp only [Sm3.obj, Sm3.sum, Sm3.checkSum_eq d M h], h⟩)
    (fun _ _ _ => holds_init 64 _ _ _ rfl) ops d M h

/-- On a new object every sequence of calls returns what GB/T 32905-2016 says of the bytes written. -/
theorem C77_sm3_every_history (ops : List Op) : Sm3.obj.outputs Sm3.new ops = some (expected Sm3.Spec.sm3 [] ops) := by
  obtain ⟨d, e, _⟩ := sm3_history ops Sm3.new [] sm3_new
  simp only [Obj.outputs, e]

theorem C77_sm3_sum_data (M : Bytes) : Sm3.sumData M = .ok (Sm3.Spec.sm3 M) := by
  obtain ⟨d, e, h⟩ := Sm3.write_holds Sm3.new [] M sm3_new
  rw [List.nil_append] at h
  have hc := Sm3.checkSum_eq d M h
  have l := sm3_length M
  generalize Sm3.Spec.sm3 M = r at hc l ⊢
  rw [Sm3.sumData, e]
  show Res.ok (copyInto (List.replicate 32 0) ([] ++ Sm3.checkSum d)) = _
  rw [hc, List.nil_append, copyInto_whole _ _ l]

/-- `MarshalBinary` succeeds after any history, and an object that `UnmarshalBinary` fills from the result goes on as
the saved one would: what it returns in any further history is what the bytes written before and after ask for. -/
theorem C77_sm3_save_restore (before after : List Op) (other : Sm3.D) :
    ∃ d outs saved d', Sm3.obj.run Sm3.new before = .ok (d, outs) ∧ Sm3.marshal d = .ok saved ∧ Sm3.unmarshal other saved = .ok d' ∧
      Sm3.obj.outputs d' after = some (expected Sm3.Spec.sm3 (written [] before) after) := by
  obtain ⟨d, e, h⟩ := sm3_history before Sm3.new [] sm3_new
  have hm := Sm3.marshal_eq d _ h
  obtain ⟨d', e2, h2⟩ := Sm3.unmarshal_marshal d other _ _ h hm
  obtain ⟨d3, e3, _⟩ := sm3_history after d' _ h2
  exact ⟨d, _, _, d', e, hm, e2, by simp only [Obj.outputs, e3]⟩

/-- `UnmarshalBinary` never panics and accepts exactly 108 bytes that begin with the magic number. -/
theorem C77_sm3_restore_accepts (other : Sm3.D) (b : Bytes) :
    (Sm3.unmarshal other b = .err ∨ ∃ d, Sm3.unmarshal other b = .ok d) ∧
    ((∃ d, Sm3.unmarshal other b = .ok d) ↔ b.length = 108 ∧ b.take 4 = [0x73, 0x6d, 0x33, 0x03]) := by
  rw [Sm3.unmarshal]
  by_cases h1 : b.length < 4 ∨ b.take 4 ≠ Sm3.magic
  · rw [if_pos h1]
    refine ⟨.inl rfl, ⟨fun ⟨d, h⟩ => (by cases h), fun ⟨h, h2⟩ => ?_⟩⟩
    rcases h1 with h1 | h1
    · omega
    · exact absurd h2 h1
  · rw [if_neg h1]
    have h2 : b.take 4 = Sm3.magic := by
      by_cases h : b.take 4 = Sm3.magic
      · exact h
      · exact absurd (.inr h) h1
    by_cases h3 : b.length ≠ 108
    · rw [if_pos h3]
      exact ⟨.inl rfl, ⟨fun ⟨d, h⟩ => (by cases h), fun ⟨h, _⟩ => absurd h h3⟩⟩
    · rw [if_neg h3]
      exact ⟨.inr ⟨_, rfl⟩, ⟨fun _ => ⟨by omega, h2⟩, fun _ => ⟨_, rfl⟩⟩⟩

/-- GB/T 32905 example 1, and the empty message. -/
example : expected Sm3.Spec.sm3 [] [.sum [], .write [0x61], .write [0x62, 0x63], .sum []] =
    [hx 32 0x1ab21d8355cfa17f8e61194831e81a8f22bec8c728fefb747ed035eb5082aa2b,
      hx 32 0x66c7f0f462eeedd9d1f2d46bdc10e4e24167c4875cf2f7a2297da02b8f4ba8e0] := by decide +kernel

/-! ### C78: HAS-160 -/

theorem has160_len (v : Has160.Spec.V) : (Has160.Spec.toBytes v).length = 20 := by
  obtain ⟨a, b, c, d, e⟩ := v
  simp [Has160.Spec.toBytes]

theorem C78_has160_every_history (ops : List Op) :
    Has160.obj.outputs Has160.new ops = some (expected Has160.Spec.has160 [] ops) := by
  obtain ⟨d, e, _⟩ := Obj.run_of_sim Has160.obj Has160.Spec.has160 Has160.Holds
    (fun d M x h => bufWrite_holds 64 (by decide) _ _ d M x h)
    (fun d M p h => ⟨d, by simp only [Has160.obj, Has160.sum, Has160.checkSum_eq d M h, Res.bind_ok], h⟩)
    (fun _ _ _ => holds_init 64 _ _ _ rfl) ops Has160.new [] (holds_init 64 _ _ _ rfl)
  simp only [Obj.outputs, e]

theorem C78_has160_sum_data (M : Bytes) : Has160.sumData M = .ok (Has160.Spec.has160 M) := by
  obtain ⟨d, e, h⟩ := bufWrite_holds 64 (by decide) Has160.stepBlock Has160.initH Has160.new [] M (holds_init 64 _ _ _ rfl)
  have l : (Has160.Spec.has160 M).length = 20 := by
    rw [Has160.Spec.has160]; exact has160_len _
  rw [List.nil_append] at h
  simp only [Has160.sumData, Has160.write, e, Res.bind_ok, Has160.sum, Has160.checkSum_eq d M h, List.nil_append, copyInto_whole _ _ l]

/-- The TTAS.KO-12.0011 answer for "abc". -/
example : expected Has160.Spec.has160 [] [.write [0x61], .sum [], .write [0x62, 0x63], .sum [], .sum []] =
    [Has160.Spec.has160 [0x61], hx 20 0x975e810488cf2a3d49838478124afce4b1c78804, hx 20 0x975e810488cf2a3d49838478124afce4b1c78804] := by
  decide +kernel

/-! ### C79: belt-hash -/

theorem C79_belt_every_history (ops : List Op) : Belt.obj.outputs Belt.new ops = some (expected Belt.Spec.beltHash [] ops) := by
  obtain ⟨d, e, _⟩ := Obj.run_of_sim Belt.obj Belt.Spec.beltHash Belt.Holds
    (fun d M x h => bufWrite_holds 32 (by decide) _ _ d M x h)
    (fun d M p h => ⟨d, by simp only [Belt.obj, Belt.sum, Belt.checkSum_eq d M h], h⟩)
    (fun _ _ _ => holds_init 32 _ _ _ rfl) ops Belt.new [] (holds_init 32 _ _ _ rfl)
  simp only [Obj.outputs, e]

theorem C79_belt_sum_data (M : Bytes) : Belt.sumData M = .ok (Belt.Spec.beltHash M) := by
  obtain ⟨d, e, h⟩ := bufWrite_holds 32 (by decide) Belt.block Belt.iv0 Belt.new [] M (holds_init 32 _ _ _ rfl)
  have l := Belt.beltHash_length M
  rw [List.nil_append] at h
  simp only [Belt.sumData, Belt.write, e, Res.bind_ok, Belt.sum, Belt.checkSum_eq d M h, List.nil_append, l]
  rw [if_neg (by decide), List.take_of_length_le (by omega), copyInto_whole _ _ l]

/-- STB 34.101.31 table A.23, first row, written in two pieces. -/
example : expected Belt.Spec.beltHash [] [.write (hx 7 0xB194BAC80A08F5), .write (hx 6 0x3B366D008E58), .sum []] =
    [hx 32 0xABEF9725D4C5A83597A367D14494CC2542F20F659DDFECC961A3EC550CBA8C75] := by decide +kernel

end Verif.Hash
