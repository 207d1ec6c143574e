import Verif.Stream.Enigma
/-
C161: the Enigma-style cipher of cipher/enigma.
-/
namespace Verif.Strm.Enigma
open Verif.Mode

/-- C161. Every 13 byte key and every seed makes a cipher, and the key schedule ends, neither in a panic nor in an endless loop. The cipher replaces the byte at each
position of the stream by a substitution that does not depend on how the stream is cut into calls. The substitution at every position is its own inverse and has no
fixed point, and it is made of rotors: two inverse permutations and an exchange of bytes in pairs, turned at every byte and at every 256 bytes. -/
theorem C161_enigma (key : Bytes) (seed : BitVec 32) (h : key.length = 13) :
    ∃ s t1 t2 t3, newCipher key seed = .ok s ∧ Rotors t1 t2 t3 ∧ IsSubst call s (subst t1 t2 t3) ∧
      (∀ p x, subst t1 t2 t3 p (subst t1 t2 t3 p x) = x) ∧ (∀ p x, subst t1 t2 t3 p x ≠ x) := by
  obtain ⟨s, e, hr, a, b, c⟩ := newCipher_ok key seed h
  exact ⟨s, _, _, _, e, hr, isSubst_of s ⟨rfl, rfl, rfl, by rw [a], by rw [b], by rw [c, b]⟩, subst_twice hr, subst_moves hr⟩

/-- C161. Keys of another length are refused. -/
theorem C161_enigma_keys (key : Bytes) (seed : BitVec 32) (h : key.length ≠ 13) : newCipher key seed = .err := if_neg h

/-- C161. A second object with the same key and seed undoes any history of the first, however either was cut up, and no byte of the output is the byte of the
input at the same position. -/
theorem C161_enigma_roundtrip (key : Bytes) (seed : BitVec 32) (x : St) (hx : newCipher key seed = .ok x) (ins outs ins' outs' : List Bytes) (y y' : St)
    (he : Calls Any call x ins outs y) (hd : Calls Any call x ins' outs' y') (hf : ins'.flatten = outs.flatten) :
    outs'.flatten = ins.flatten ∧ outs.flatten.length = ins.flatten.length ∧ ∀ (i : Nat) (b : Byte), ins.flatten[i]? = some b → outs.flatten[i]? ≠ some b := by
  have hk : key.length = 13 := by
    by_contra hc
    rw [C161_enigma_keys key seed hc] at hx
    cases hx
  obtain ⟨s, t1, t2, t3, e, hr, hs, h1, h2⟩ := C161_enigma key seed hk
  rw [hx] at e
  obtain rfl := Res.ok.inj e
  have o1 := (hs _ _ _ he).1
  have o2 := (hs _ _ _ hd).1
  refine ⟨by rw [o2, hf, o1, mapFrom_twice _ h1], by rw [o1, mapFrom_length], fun i b hi hc => ?_⟩
  rw [o1] at hc
  simp only [mapFrom, List.getElem?_mapIdx, hi, Option.map_some, Option.some.injEq] at hc
  exact h2 _ _ hc

/-- The first key of cipher/enigma/enigma_test.go and the default seed. -/
def testKey : Bytes := ([0x65, 0x6e, 0x61, 0x64, 0x79, 0x6f, 0x74, 0x72, 0, 0, 0, 0, 0] : List Nat).map (BitVec.ofNat 8)
/-- What a new cipher makes of a message. -/
def run (key : Bytes) (seed : BitVec 32) (l : Bytes) : Bytes :=
  match newCipher key seed with
  | .ok s => (crypt s l).1
  | _ => []

-- The test vector of the package.
example : run testKey 123 ((List.range 20).map (BitVec.ofNat 8)) =
    (([0xf3, 0xed, 0xda, 0x7d, 0xa2, 0x0f, 0x89, 0x75, 0x88, 0x46, 0x00, 0xf0, 0x14, 0xd3, 0x2c, 0x7a, 0x08, 0xe5, 0x9d, 0x7b] : List Nat).map (BitVec.ofNat 8)) := by
  decide +kernel

theorem newCipher_run (key : Bytes) (seed : BitVec 32) (s : St) (h : newCipher key seed = .ok s) (l : Bytes) : run key seed l = (crypt s l).1 := by
  unfold run
  rw [h]

/-- C161, fails. `XORKeyStream` does not XOR: there is no key stream at all for the package's own test key, since the bytes 0 and 1 do not go to bytes that differ in the
last bit only. Code that treats the cipher as a key stream generator, by encrypting zeros and XORing later, gets something else. -/
theorem C161_enigma_xor_violated : ∃ s, newCipher testKey 123 = .ok s ∧ ∀ ks, ¬ IsStream Any call s ks := by
  obtain ⟨s, e, hr, a, b, c⟩ := newCipher_ok testKey 123 rfl
  refine ⟨s, e, fun ks h => ?_⟩
  have one : ∀ x : Byte, (crypt s [x]).1 = [x ^^^ ks 0] := by
    intro x
    have hm : (Mem.write (fun _ => 0) 0 [x]).read 0 1 = [x] := Mem.read_write_self _ _ _
    have hno : NoPartialOverlap ⟨1, 1, 1⟩ ⟨0, 1, 1⟩ := by simp [NoPartialOverlap, inexactOverlap, anyOverlap]
    obtain ⟨y', e'⟩ := ((h _ _ _ (Calls.nil s)).2 (Mem.write (fun _ => 0) 0 [x]) ⟨1, 1, 1⟩ ⟨0, 1, 1⟩ trivial).1 ⟨Nat.le_refl _, hno⟩
    have hr := congrArg (fun r : Res (Mem × St) => match r with | .ok q => q.1 1 | _ => 0) e'
    unfold call at hr
    rw [if_neg (by decide), if_neg (fun hc => (inexact_iff ⟨1, 1, 1⟩ ⟨0, 1, 1⟩ (Nat.le_refl _)).mp hc hno)] at hr
    simp only [hm, crypt, List.flatten_nil, List.length_nil] at hr
    simp [Mem.write, xorb, Spec.keyBytes] at hr
    simp [crypt, hr]
  have e0 := one 0
  have e1 := one 1
  rw [← newCipher_run testKey 123 s e] at e0 e1
  have d : run testKey 123 [0] = [0xf3] := by decide +kernel
  have d1 : run testKey 123 [1] ≠ [0xf2] := by decide +kernel
  rw [d] at e0
  have hk : ks 0 = 0xf3 := by simpa using e0.symm
  rw [hk] at e1
  exact d1 e1

end Verif.Strm.Enigma
