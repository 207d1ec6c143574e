import Verif.Stream.Salsa20
import Mathlib.Tactic.ByContra
/-
Theorems about /repo/cipher/salsa20.
-/
namespace Verif.Strm

open Verif.Mode in
/-- `IsStream` for histories of at most `N` bytes in all. -/
def IsStreamUpTo {σ : Type} (N : Nat) (call : σ → Mem → Slice → Slice → Res (Mem × σ)) (x : σ) (ks : Nat → Byte) : Prop :=
  ∀ ins outs y, Calls Any call x ins outs y → ins.flatten.length ≤ N →
    outs.flatten = xorb ins.flatten (Spec.keyBytes ks 0 ins.flatten.length) ∧
    ∀ m dst src, ins.flatten.length + src.len ≤ N →
      (src.len ≤ dst.len ∧ NoPartialOverlap dst src →
        ∃ y', call y m dst src = .ok (m.write dst.ptr (xorb (m.read src.ptr src.len)
          (Spec.keyBytes ks ins.flatten.length src.len)), y')) ∧
      (¬ (src.len ≤ dst.len ∧ NoPartialOverlap dst src) → call y m dst src = .panic)

namespace Salsa20
open Verif.Mode Verif.Cipher

/-- The key stream of Salsa20: the first 8 bytes of the nonce (zeros where it is shorter) and the block number go into the core. -/
def keystream (core : Core) (key nonce : Bytes) (q : Nat) : Byte :=
  (core key ((List.range 8).map (fun i => nonce.getD i 0) ++ leBytes 8 (q / 64))).getD (q % 64) 0

theorem nonce8 (nonce : Bytes) : (nonce.take 16 ++ List.replicate (16 - nonce.length) 0).take 8 = (List.range 8).map (fun i => nonce.getD i 0) := by
  apply List.ext_getElem
  · simp; omega
  · intro i h1 h2
    simp only [List.length_map, List.length_range] at h2
    simp only [List.getElem_take, List.getElem_map, List.getElem_range, List.getD_eq_getElem?_getD]
    by_cases h : i < nonce.length
    · rw [List.getElem_append_left (by simp; omega), List.getElem_take, List.getElem?_eq_getElem h]; rfl
    · rw [List.getElem_append_right (by simp; omega), List.getElem_replicate, List.getElem?_eq_none (by omega)]; rfl

theorem buf_eq (core : Core) (key nonce : Bytes) (c : Counter) (data : Bytes) :
    (libXor core key (subNonce nonce c) (List.replicate (c.toNat % 64) 0 ++ data)).drop (c.toNat % 64)
      = xorb data (Spec.keyBytes (keystream core key nonce) c.toNat data.length) := by
  have h1 : (subNonce nonce c).take 8 = (List.range 8).map (fun i => nonce.getD i 0) := by
    unfold subNonce
    rw [nonce8, List.take_left' (by simp)]
  have h2 : leN ((subNonce nonce c).drop 8) = c.toNat / 64 := by
    unfold subNonce
    rw [nonce8, List.drop_left' (by simp), leN_leBytes]
    have := c.isLt
    rw [Nat.mod_eq_of_lt (by omega)]
  unfold libXor xorb
  rw [List.drop_zipWith, List.drop_left' (by simp), h1, h2]
  congr 1
  apply List.ext_getElem
  · simp [Spec.keyBytes]
  · intro i h1 h2
    have hd : c.toNat / 64 + (c.toNat % 64 + i) / 64 = (c.toNat + i) / 64 := by omega
    have hm : (c.toNat % 64 + i) % 64 = (c.toNat + i) % 64 := by omega
    simp only [Spec.keyBytes, List.getElem_drop, List.getElem_map, List.getElem_range, keystream, hd, hm]

theorem call_ok (core : Core) (key nonce : Bytes) (c : Counter) (m : Mem) (dst src : Slice) (h2 : src.len ≤ dst.len)
    (h3 : NoPartialOverlap dst src) : xorKS core key nonce c m dst src =
      .ok (m.write dst.ptr (xorb (m.read src.ptr src.len) (Spec.keyBytes (keystream core key nonce) c.toNat src.len)),
        c + BitVec.ofNat 64 src.len) := by
  have h3' : inexactOverlap ⟨dst.ptr, src.len, dst.cap⟩ src = false := by simpa [NoPartialOverlap] using h3
  unfold xorKS
  by_cases h0 : src.len = 0
  · rw [if_pos h0, h0]; simp [Mem.read, xorb, Mem.write_nil]
  · rw [if_neg h0, if_neg (by omega), h3', if_neg (by simp)]
    simp only []
    rw [buf_eq]; simp

theorem call_panics (core : Core) (key nonce : Bytes) (c : Counter) (m : Mem) (dst src : Slice)
    (hn : ¬ (src.len ≤ dst.len ∧ NoPartialOverlap dst src)) : xorKS core key nonce c m dst src = .panic := by
  have h0 : src.len ≠ 0 := by
    intro h0; apply hn; refine ⟨by omega, ?_⟩
    simp [NoPartialOverlap, inexactOverlap, h0]
  unfold xorKS
  rw [if_neg h0]
  by_cases h2 : src.len ≤ dst.len
  · have h3 : ¬ NoPartialOverlap dst src := fun h3 => hn ⟨h2, h3⟩
    rw [if_neg (by omega), if_pos (by simpa [NoPartialOverlap] using h3)]
  · rw [if_pos (by omega)]

/-- **C132**, for Salsa20: the constructors take exactly the keys of 32 bytes; whatever the block function, the object XORs the Salsa20 key
stream from byte `counter` on, wherever the data is cut, up to byte 2^64. -/
theorem C132_salsa20_partial (core : Core) (key nonce : Bytes) (c0 : Counter) :
    (key.length ≠ 32 → newCipher key c0 = .err) ∧
    (key.length = 32 → ∃ c, newCipher key c0 = .ok c ∧
      IsStreamUpTo (2 ^ 64 - c0.toNat) (xorKS core key nonce) c (fun p => keystream core key nonce (c0.toNat + p))) := by
  refine ⟨fun h => by rw [newCipher, if_pos h], fun h => ⟨c0, by rw [newCipher, if_neg (by simpa using h)], ?_⟩⟩
  have hkb : ∀ p n, Spec.keyBytes (fun p => keystream core key nonce (c0.toNat + p)) p n = Spec.keyBytes (keystream core key nonce) (c0.toNat + p) n := by
    intro p n; simp [Spec.keyBytes, Nat.add_assoc]
  have hc0 := c0.isLt
  have key : ∀ st ins outs y, Calls Any (xorKS core key nonce) st ins outs y → ∀ p, st = c0 + BitVec.ofNat 64 p →
      p + ins.flatten.length ≤ 2 ^ 64 - c0.toNat →
      outs.flatten = xorb ins.flatten (Spec.keyBytes (keystream core key nonce) (c0.toNat + p) ins.flatten.length) ∧
        y = c0 + BitVec.ofNat 64 (p + ins.flatten.length) := by
    intro st ins outs y hc
    induction hc with
    | nil st => intro p hp _; simpa [Spec.keyBytes, xorb] using hp
    | @cons st st' st'' m m' dst src ins outs ha h t ih =>
      intro p hp hN
      have hg : src.len ≤ dst.len ∧ NoPartialOverlap dst src := by
        by_contra hn
        rw [call_panics _ _ _ _ _ _ _ hn] at h; cases h
      rw [call_ok _ _ _ _ _ _ _ hg.1 hg.2] at h
      obtain ⟨rfl, rfl⟩ := Prod.mk.inj (Res.ok.inj h)
      rw [List.flatten_cons, List.length_append, Mem.read_length] at hN
      obtain ⟨f1, f2⟩ := ih (p + src.len) (by rw [hp, BitVec.add_assoc, BitVec.ofNat_add]) (by omega)
      refine ⟨?_, ?_⟩
      · have hst : src.len ≠ 0 → st.toNat = c0.toNat + p := by
          intro h0
          rw [hp, BitVec.toNat_add, BitVec.toNat_ofNat]; omega
        have hk : Spec.keyBytes (keystream core key nonce) st.toNat src.len = Spec.keyBytes (keystream core key nonce) (c0.toNat + p) src.len := by
          by_cases h0 : src.len = 0
          · rw [h0]; rfl
          · rw [hst h0]
        rw [List.flatten_cons, List.flatten_cons, f1, hk, Mem.read_write_self' _ _ _ _ (by simp [Spec.keyBytes]), List.length_append,
          ← ksTake_keyBytes, ← ksTake_keyBytes, ← ksTake_keyBytes, ksTake_append, xorb_append _ _ _ _ (by simp), ← Nat.add_assoc]
        simp
      · rw [List.flatten_cons, List.length_append, Mem.read_length, ← Nat.add_assoc]; exact f2
  intro ins outs y hc hN
  obtain ⟨k1, k2⟩ := key c0 ins outs y hc 0 (by simp) (by omega)
  refine ⟨by rw [k1, hkb], fun m dst src hl => ⟨fun hg => ?_, fun hn => call_panics _ _ _ _ _ _ _ hn⟩⟩
  rw [hkb]
  refine ⟨y + BitVec.ofNat 64 src.len, ?_⟩
  rw [call_ok _ _ _ _ _ _ _ hg.1 hg.2]
  by_cases h0 : src.len = 0
  · rw [h0]; rfl
  · have : y.toNat = c0.toNat + ins.flatten.length := by
      rw [k2, BitVec.toNat_add, BitVec.toNat_ofNat]; omega
    rw [this]

/-- **C132 fails** for Salsa20 at the end of the counter: with the counter at the last byte, two bytes encrypted in one call use block 2^58,
two calls of one byte use block 0 for the second byte. -/
theorem C132_salsa20_wrap_violated : ∃ (core : Core) (key nonce : Bytes) (c : Counter), newCipher key (BitVec.ofNat 64 (2 ^ 64 - 1)) = .ok c ∧
    ∃ m c1 c2 m1 m2 c3, xorKS core key nonce c m ⟨10, 2, 2⟩ ⟨0, 2, 2⟩ = .ok (m1, c1) ∧
      xorKS core key nonce c m ⟨10, 1, 1⟩ ⟨0, 1, 1⟩ = .ok (m2, c2) ∧
      ∃ m3, xorKS core key nonce c2 m2 ⟨11, 1, 1⟩ ⟨1, 1, 1⟩ = .ok (m3, c3) ∧ m1.read 10 2 ≠ m3.read 10 2 := by
  refine ⟨fun _ ctr => List.replicate 64 (ctr.getD 15 0), List.replicate 32 0, [], _, rfl, fun _ => 0, _, _, _, _, _,
    call_ok _ _ _ _ _ _ _ (by decide) (by decide), call_ok _ _ _ _ _ _ _ (by decide) (by decide), _,
    call_ok _ _ _ _ _ _ _ (by decide) (by decide), ?_⟩
  decide +kernel

/-- **C132** (nonce): the documentation asks for a nonce of 16 bytes, of which the last 8 have no effect: two nonces with the same first 8
bytes give the same behaviour in every call, for every key and block function. -/
theorem C132_salsa20_nonce_violated (core : Core) (key nonce nonce' : Bytes) (h : nonce.length = 16) (h' : nonce'.length = 16)
    (he : nonce.take 8 = nonce'.take 8) (c : Counter) (m : Mem) (dst src : Slice) :
    xorKS core key nonce c m dst src = xorKS core key nonce' c m dst src := by
  have : subNonce nonce c = subNonce nonce' c := by
    unfold subNonce
    rw [h, h', List.take_append_of_le_length (by simp [h]), List.take_append_of_le_length (by simp [h']), List.take_take, List.take_take]
    simp only [show min 8 16 = 8 from rfl, he]
  unfold xorKS
  rw [this]

/-- The object keeps the caller's nonce slice: when the caller changes it between two calls, the key stream changes. -/
theorem C132_salsa20_nonce_aliased_violated : ∃ (core : Core) (key : Bytes) (c : Counter), newCipher key 0 = .ok c ∧
    ∃ (m m' : Mem) (m1 m2 : Mem) (c1 c2 : Counter), (∀ a, a ≠ 100 → m a = m' a) ∧
      xorKSRef core key ⟨100, 16, 16⟩ c m ⟨10, 1, 1⟩ ⟨0, 1, 1⟩ = .ok (m1, c1) ∧
      xorKSRef core key ⟨100, 16, 16⟩ c m' ⟨10, 1, 1⟩ ⟨0, 1, 1⟩ = .ok (m2, c2) ∧ m1 10 ≠ m2 10 := by
  refine ⟨fun _ ctr => List.replicate 64 (ctr.getD 0 0), List.replicate 32 0, _, rfl, fun _ => 0, fun a => if a = 100 then 1 else 0, _, _, _, _,
    fun a h => by simp [h], call_ok _ _ _ _ _ _ _ (by decide) (by decide), call_ok _ _ _ _ _ _ _ (by decide) (by decide), ?_⟩
  decide +kernel

example : (List.replicate 8 1 ++ List.replicate 8 2 : Bytes).take 8 = (List.replicate 8 1 ++ List.replicate 8 3 : Bytes).take 8 := rfl

end Salsa20
end Verif.Strm
