import Verif.Xoodyak.Aead
import Verif.Xoodyak.Inverse
import Verif.Cipher.Common
/-!
# C149: the Xoodyak AEAD
-/
namespace Verif.Xoodyak
open Verif

/-- C149: `CryptoEncryptAEAD` is the published AEAD on 16-byte keys and nonces, and an error otherwise. -/
theorem C149_encrypt (m K N A : Bytes) :
    encAead m K N A = if K.length = 16 ∧ N.length = 16 then .ok (Spec.aead K N A m) else .err := by
  by_cases h1 : K.length = 16
  · by_cases h2 : N.length = 16
    · rw [if_pos ⟨h1, h2⟩, encAead_eq m K N A h1 h2]
    · rw [if_neg (fun h => h2 h.2)]
      unfold encAead
      rw [if_neg (by omega), if_pos h2]
  · rw [if_neg (fun h => h1 h.1)]
    unfold encAead
    rw [if_pos h1]

/-- C149: `CryptoDecryptAEAD` answers `valid` with plaintext `P` exactly when ciphertext and tag are the published ones of
`P`. -/
theorem C149_decrypt_iff (C K N A T P : Bytes) (hK : K.length = 16) (hN : N.length = 16) :
    decAead C K N A T = .ok (some P) ↔ Spec.aead K N A P = (C, T) := by
  rw [decAead_eq C K N A T hK hN, ← dec_iff]
  by_cases h : tagOf (Spec.crypt (adState K N A) C true).1 = T
  · rw [if_pos h]
    constructor
    · intro e; exact ⟨h, Option.some.inj (Res.ok.inj e)⟩
    · rintro ⟨_, rfl⟩; rfl
  · rw [if_neg h]
    constructor
    · intro e; exact absurd (Res.ok.inj e) (by simp)
    · rintro ⟨e, _⟩; exact absurd e h

/-- C149: and `valid = false`, without plaintext, when there is no such `P`. -/
theorem C149_decrypt_rejects (C K N A T : Bytes) (hK : K.length = 16) (hN : N.length = 16)
    (h : ∀ P, Spec.aead K N A P ≠ (C, T)) : decAead C K N A T = .ok none := by
  rw [decAead_eq C K N A T hK hN]
  by_cases e : tagOf (Spec.crypt (adState K N A) C true).1 = T
  · exact absurd ((dec_iff C K N A T _).mp ⟨e, rfl⟩) (h _)
  · rw [if_neg e]

/-- Different plaintexts have different ciphertexts. -/
theorem aead_inj (K N A P Q : Bytes) (h : (Spec.aead K N A P).1 = (Spec.aead K N A Q).1) : P = Q := by
  have d : ∀ X, (Spec.crypt (adState K N A) (Spec.aead K N A X).1 true).2 = X :=
    fun X => ((dec_iff (Spec.aead K N A X).1 K N A (Spec.aead K N A X).2 X).mpr rfl).2
  rw [← d P, ← d Q, h]

/-! Memory. -/

theorem append2 (slack : Nat → Nat) (h : Heap) (dst : Slice) (X Y : Bytes) (hv : dst.Valid h) :
    let a := appendM slack h dst X
    let b := appendM slack a.1 a.2 Y
    b.2.Valid b.1 ∧ b.1.bytes b.2 = h.bytes dst ++ X ++ Y ∧ FrameExcept h b.1 (dst.ptr + dst.len) (dst.ptr + dst.cap) := by
  intro a b
  obtain ⟨v1, b1, l1, f1, p1⟩ := appendM_spec slack h dst X hv
  obtain ⟨v2, b2, l2, f2, p2⟩ := appendM_spec slack a.1 a.2 Y v1
  refine ⟨v2, by rw [b2, b1], Nat.le_trans f1.1 f2.1, ?_⟩
  intro x hx ho
  rw [f2.2 x (Nat.lt_of_lt_of_le hx f1.1) ?_, f1.2 x hx ho]
  have hd := hv.1
  rcases p1 with ⟨e1, e2⟩ | hp
  · show x < a.2.ptr + a.2.len ∨ a.2.ptr + a.2.cap ≤ x
    have l1' : a.2.len = dst.len + X.length := l1
    have e1' : a.2.ptr = dst.ptr := e1
    have e2' : a.2.cap = dst.cap := e2
    omega
  · left
    show x < a.2.ptr + a.2.len
    have hp' : h.brk ≤ a.2.ptr := hp
    omega

theorem keyEffect_frame (slack : Nat → Nat) (h : Heap) (key id : Slice) (hv : key.Valid h) :
    FrameExcept h (keyEffect slack h key id) (key.ptr + key.len) (key.ptr + key.cap) :=
  (append2 slack h key (h.bytes id) [BitVec.ofNat 8 id.len] hv).2.2

theorem bytes_frame {h h' : Heap} {lo hi : Nat} (f : FrameExcept h h' lo hi) (x : Slice) (hv : x.Valid h)
    (ap : x.ptr + x.len ≤ lo ∨ hi ≤ x.ptr) : h'.bytes x = h.bytes x := by
  unfold Heap.bytes
  apply List.ext_getElem
  · simp
  · intro i h1 h2
    have hi' : i < x.len := by simpa using h1
    rw [Mem.read_getElem, Mem.read_getElem]
    have := hv.1; have := hv.2
    exact f.2 _ (by omega) (by omega)

/-- The bytes behind the key, up to its capacity, do not meet the slice `x`. -/
def KeyApart (key x : Slice) : Prop := x.ptr + x.len ≤ key.ptr + key.len ∨ key.ptr + key.cap ≤ x.ptr

/-- C149 (part: the memory behind the key slice is not that of the other arguments): `Seal` appends the published ciphertext and
tag to `dst`, whatever the overlap of its other arguments, and writes nothing but the spare capacity of `dst` and of the
key. -/
theorem C149_seal_partial (slack : Nat → Nat) (key : Slice) (h : Heap) (dst nonce pt ad : Slice) (vk : key.Valid h) (vd : dst.Valid h)
    (vp : pt.Valid h) (va : ad.Valid h) (hk : key.len = 16) (hn : nonce.len = 16)
    (kd : KeyApart key dst) (kp : KeyApart key pt) (ka : KeyApart key ad) :
    ∃ h' r, sealX slack key h dst nonce pt ad = .ok (h', r) ∧ r.Valid h' ∧
      h'.bytes r = h.bytes dst ++ (Spec.aead (h.bytes key) (h.bytes nonce) (h.bytes ad) (h.bytes pt)).1 ++
        (Spec.aead (h.bytes key) (h.bytes nonce) (h.bytes ad) (h.bytes pt)).2 ∧
      ∀ x < h.brk, ¬ (dst.ptr + dst.len ≤ x ∧ x < dst.ptr + dst.cap) → ¬ (key.ptr + key.len ≤ x ∧ x < key.ptr + key.cap) →
        h'.mem x = h.mem x := by
  have f := keyEffect_frame slack h key nonce vk
  have e : sealX slack key h dst nonce pt ad =
      .ok (appendM slack (appendM slack (keyEffect slack h key nonce) dst (Spec.aead (h.bytes key) (h.bytes nonce) (h.bytes ad) (h.bytes pt)).1).1
        (appendM slack (keyEffect slack h key nonce) dst (Spec.aead (h.bytes key) (h.bytes nonce) (h.bytes ad) (h.bytes pt)).1).2
        (Spec.aead (h.bytes key) (h.bytes nonce) (h.bytes ad) (h.bytes pt)).2) := by
    unfold sealX
    simp only []
    rw [if_neg (by omega), bytes_frame f pt vp kp, bytes_frame f ad va ka,
      encAead_eq _ _ _ _ (by rw [← hk]; exact Mem.read_length ..) (by rw [← hn]; exact Mem.read_length ..)]
    rfl
  have vd' : dst.Valid (keyEffect slack h key nonce) := ⟨vd.1, Nat.le_trans vd.2 f.1⟩
  obtain ⟨v, b, g⟩ := append2 slack (keyEffect slack h key nonce) dst (Spec.aead (h.bytes key) (h.bytes nonce) (h.bytes ad) (h.bytes pt)).1
    (Spec.aead (h.bytes key) (h.bytes nonce) (h.bytes ad) (h.bytes pt)).2 vd'
  refine ⟨_, _, e, v, ?_, ?_⟩
  · rw [← bytes_frame f dst vd kd]; exact b
  · intro x hx h1 h2
    exact (g.2 x (Nat.lt_of_lt_of_le hx f.1) (by omega)).trans (f.2 x hx (by omega))

/-- C149 (part, as above): `Open` accepts the published ciphertext of any plaintext and appends the plaintext. -/
theorem C149_open_accepts_partial (slack : Nat → Nat) (key : Slice) (h : Heap) (dst nonce ct ad : Slice) (vk : key.Valid h) (vd : dst.Valid h)
    (vc : ct.Valid h) (va : ad.Valid h) (hk : key.len = 16) (hn : nonce.len = 16)
    (kd : KeyApart key dst) (kc : KeyApart key ct) (ka : KeyApart key ad) (P : Bytes)
    (hP : h.bytes ct = (Spec.aead (h.bytes key) (h.bytes nonce) (h.bytes ad) P).1 ++ (Spec.aead (h.bytes key) (h.bytes nonce) (h.bytes ad) P).2) :
    ∃ h' r, openX slack key h dst nonce ct ad = .ok (h', some r) ∧ r.Valid h' ∧ h'.bytes r = h.bytes dst ++ P ∧
      ∀ x < h.brk, ¬ (dst.ptr + dst.len ≤ x ∧ x < dst.ptr + dst.cap) → ¬ (key.ptr + key.len ≤ x ∧ x < key.ptr + key.cap) →
        h'.mem x = h.mem x := by
  have f := keyEffect_frame slack h key nonce vk
  obtain ⟨l1, l2⟩ := aead_lens (h.bytes key) (h.bytes nonce) (h.bytes ad) P
  have hl : ct.len = P.length + 16 := by
    have := congrArg List.length hP
    rw [List.length_append, l1, l2] at this
    rw [← this]; exact (Mem.read_length ..).symm
  have bc := bytes_frame f ct vc kc
  have c1 : (keyEffect slack h key nonce).bytes ⟨ct.ptr, ct.len - 16, ct.cap⟩ = (Spec.aead (h.bytes key) (h.bytes nonce) (h.bytes ad) P).1 := by
    have t := Mem.read_take (keyEffect slack h key nonce).mem ct.ptr ct.len (ct.len - 16)
    rw [show min (ct.len - 16) ct.len = ct.len - 16 by omega] at t
    show Mem.read _ _ _ = _
    rw [← t]
    show ((keyEffect slack h key nonce).bytes ct).take _ = _
    rw [bc, hP, List.take_left' (by rw [l1]; omega)]
  have c2 : (keyEffect slack h key nonce).bytes ⟨ct.ptr + (ct.len - 16), 16, ct.cap - (ct.len - 16)⟩ = (Spec.aead (h.bytes key) (h.bytes nonce) (h.bytes ad) P).2 := by
    have t := Mem.read_drop (keyEffect slack h key nonce).mem ct.ptr ct.len (ct.len - 16)
    rw [show ct.len - (ct.len - 16) = 16 by omega] at t
    show Mem.read _ _ _ = _
    rw [← t]
    show ((keyEffect slack h key nonce).bytes ct).drop _ = _
    rw [bc, hP, List.drop_left' (by rw [l1]; omega)]
  have hD := (C149_decrypt_iff (Spec.aead (h.bytes key) (h.bytes nonce) (h.bytes ad) P).1 (h.bytes key) (h.bytes nonce) (h.bytes ad)
    (Spec.aead (h.bytes key) (h.bytes nonce) (h.bytes ad) P).2 P (by rw [← hk]; exact Mem.read_length ..) (by rw [← hn]; exact Mem.read_length ..)).mpr rfl
  have vd' : dst.Valid (keyEffect slack h key nonce) := ⟨vd.1, Nat.le_trans vd.2 f.1⟩
  obtain ⟨v, b, l, g, _⟩ := appendM_spec slack (keyEffect slack h key nonce) dst P vd'
  refine ⟨_, _, ?_, v, ?_, ?_⟩
  · unfold openX
    simp only []
    rw [if_neg (by omega), if_neg (by omega), c1, c2, bytes_frame f ad va ka, hD]
    rfl
  · rw [← bytes_frame f dst vd kd]; exact b
  · intro x hx h1 h2
    exact (g.2 x (Nat.lt_of_lt_of_le hx f.1) (by omega)).trans (f.2 x hx (by omega))

/-- C149 (part, as above): `Open` refuses every other string and writes nothing but what lies behind the key. -/
theorem C149_open_rejects_partial (slack : Nat → Nat) (key : Slice) (h : Heap) (dst nonce ct ad : Slice) (vk : key.Valid h)
    (vc : ct.Valid h) (va : ad.Valid h) (hk : key.len = 16) (kc : KeyApart key ct) (ka : KeyApart key ad)
    (hP : nonce.len ≠ 16 ∨ ∀ P, h.bytes ct ≠ (Spec.aead (h.bytes key) (h.bytes nonce) (h.bytes ad) P).1 ++
      (Spec.aead (h.bytes key) (h.bytes nonce) (h.bytes ad) P).2) :
    ∃ h', openX slack key h dst nonce ct ad = .ok (h', none) ∧
      ∀ x < h.brk, ¬ (key.ptr + key.len ≤ x ∧ x < key.ptr + key.cap) → h'.mem x = h.mem x := by
  by_cases hn : nonce.len ≠ 16
  · refine ⟨h, ?_, fun _ _ _ => rfl⟩
    unfold openX
    rw [if_pos hn]
  have hn := Decidable.not_not.mp hn
  have hP := hP.resolve_left (fun h => h hn)
  by_cases hs : ct.len < 16
  · refine ⟨h, ?_, fun _ _ _ => rfl⟩
    unfold openX
    rw [if_neg (by omega), if_pos hs]
  have f := keyEffect_frame slack h key nonce vk
  have bc := bytes_frame f ct vc kc
  have hj : (keyEffect slack h key nonce).bytes ⟨ct.ptr, ct.len - 16, ct.cap⟩ ++
      (keyEffect slack h key nonce).bytes ⟨ct.ptr + (ct.len - 16), 16, ct.cap - (ct.len - 16)⟩ = h.bytes ct := by
    rw [← bc]
    show Mem.read _ _ _ ++ Mem.read _ _ _ = Mem.read _ _ _
    rw [← Mem.read_append]
    congr 1
    show ct.len - 16 + 16 = ct.len
    omega
  refine ⟨keyEffect slack h key nonce, ?_, fun x hx h2 => f.2 x hx (by omega)⟩
  unfold openX
  simp only []
  rw [if_neg (by omega), if_neg hs, bytes_frame f ad va ka]
  rw [C149_decrypt_rejects _ _ _ _ _ (by rw [← hk]; exact Mem.read_length ..) (by rw [← hn]; exact Mem.read_length ..)]
  · rfl
  · intro P e
    apply hP P
    rw [e]
    exact hj.symm

/-- C149: `Seal` panics exactly on a nonce of the wrong length. -/
theorem C149_seal_panics_iff (slack : Nat → Nat) (key : Slice) (h : Heap) (dst nonce pt ad : Slice) (hk : key.len = 16) :
    sealX slack key h dst nonce pt ad = .panic ↔ nonce.len ≠ 16 := by
  unfold sealX
  by_cases hn : nonce.len = 16
  · rw [if_neg (by omega)]
    simp only []
    rw [encAead_eq _ _ _ _ (by rw [← hk]; exact Mem.read_length ..) (by rw [← hn]; exact Mem.read_length ..)]
    constructor
    · intro e; exact absurd e (by simp [Res.bind])
    · intro e; exact absurd hn e
  · rw [if_pos hn]
    exact ⟨fun _ => hn, fun _ => rfl⟩

/-- C149: objects exist exactly for 16-byte keys. -/
theorem C149_keys (key : Slice) : (∃ o, newAead key = .ok o) ↔ key.len = 16 := by
  unfold newAead
  by_cases h : key.len = 16 <;> simp [h]

/-- A heap: 16 bytes of key at 0, a nonce at 16, the text from 32 on. -/
def demoH : Heap := ⟨fun a => BitVec.ofNat 8 (7 * a + 3), 100⟩

/-- Non-vacuity of the hypotheses above: a key cut to its length, in place, 21 bytes of text. -/
example : Slice.Valid ⟨0, 16, 16⟩ demoH ∧ Slice.Valid ⟨40, 21, 60⟩ demoH ∧ Slice.Valid ⟨40, 0, 60⟩ demoH ∧ Slice.Valid ⟨16, 16, 16⟩ demoH ∧
    KeyApart ⟨0, 16, 16⟩ ⟨40, 21, 60⟩ ∧ KeyApart ⟨0, 16, 16⟩ ⟨40, 0, 60⟩ := by
  simp [Slice.Valid, KeyApart, demoH]

/-- C149 violated: a key slice with spare capacity.  `buf` holds a 16-byte key, a nonce and one byte of plaintext behind each other;
`Seal(nil, buf[16:32], buf[32:33], nil)` with the key `buf[:16]` overwrites the plaintext with 16 and returns the ciphertext of
that instead. -/
theorem C149_seal_key_capacity_violated :
    ∃ (h : Heap) (key dst nonce pt ad : Slice), key.Valid h ∧ dst.Valid h ∧ nonce.Valid h ∧ pt.Valid h ∧ ad.Valid h ∧ key.len = 16 ∧
      nonce.len = 16 ∧ ∀ slack, ∃ h' r, sealX slack key h dst nonce pt ad = .ok (h', r) ∧
        h'.bytes r ≠ (Spec.aead (h.bytes key) (h.bytes nonce) (h.bytes ad) (h.bytes pt)).1 ++ (Spec.aead (h.bytes key) (h.bytes nonce) (h.bytes ad) (h.bytes pt)).2 ∧
        h'.bytes pt ≠ h.bytes pt := by
  refine ⟨demoH, ⟨0, 16, 100⟩, ⟨0, 0, 0⟩, ⟨16, 16, 84⟩, ⟨32, 1, 68⟩, ⟨0, 0, 0⟩, ?_, ?_, ?_, ?_, ?_, rfl, rfl, ?_⟩
  · simp [Slice.Valid, demoH]
  · simp [Slice.Valid, demoH]
  · simp [Slice.Valid, demoH]
  · simp [Slice.Valid, demoH]
  · simp [Slice.Valid, demoH]
  intro slack
  have hk : keyEffect slack demoH ⟨0, 16, 100⟩ ⟨16, 16, 84⟩ = ⟨(demoH.mem.write 16 (demoH.bytes ⟨16, 16, 84⟩)).write 32 [16], 100⟩ := by
    unfold keyEffect appendM
    simp only [show (demoH.bytes ⟨16, 16, 84⟩).length = 16 from Mem.read_length ..]
    rfl
  have hp : (keyEffect slack demoH ⟨0, 16, 100⟩ ⟨16, 16, 84⟩).bytes ⟨32, 1, 68⟩ = [16] := by
    rw [hk]; decide +kernel
  have ha : (keyEffect slack demoH ⟨0, 16, 100⟩ ⟨16, 16, 84⟩).bytes ⟨0, 0, 0⟩ = [] := rfl
  have h0 : demoH.bytes ⟨32, 1, 68⟩ = [227] := by decide +kernel
  have hz : demoH.bytes ⟨0, 0, 0⟩ = [] := rfl
  obtain ⟨v, b, g⟩ := append2 slack (keyEffect slack demoH ⟨0, 16, 100⟩ ⟨16, 16, 84⟩) ⟨0, 0, 0⟩
    (Spec.aead (demoH.bytes ⟨0, 16, 100⟩) (demoH.bytes ⟨16, 16, 84⟩) [] [16]).1
    (Spec.aead (demoH.bytes ⟨0, 16, 100⟩) (demoH.bytes ⟨16, 16, 84⟩) [] [16]).2 ⟨Nat.le_refl _, Nat.zero_le _⟩
  have e0 : sealX slack ⟨0, 16, 100⟩ demoH ⟨0, 0, 0⟩ ⟨16, 16, 84⟩ ⟨32, 1, 68⟩ ⟨0, 0, 0⟩ =
      .ok (appendM slack
        (appendM slack (keyEffect slack demoH ⟨0, 16, 100⟩ ⟨16, 16, 84⟩) ⟨0, 0, 0⟩ (Spec.aead (demoH.bytes ⟨0, 16, 100⟩) (demoH.bytes ⟨16, 16, 84⟩) [] [16]).1).1
        (appendM slack (keyEffect slack demoH ⟨0, 16, 100⟩ ⟨16, 16, 84⟩) ⟨0, 0, 0⟩ (Spec.aead (demoH.bytes ⟨0, 16, 100⟩) (demoH.bytes ⟨16, 16, 84⟩) [] [16]).1).2
        (Spec.aead (demoH.bytes ⟨0, 16, 100⟩) (demoH.bytes ⟨16, 16, 84⟩) [] [16]).2) := by
    unfold sealX
    simp only []
    rw [if_neg (by simp), hp, ha, encAead_eq _ _ _ _ rfl rfl]
    rfl
  refine ⟨_, _, e0, ?_, ?_⟩
  · intro e
    have e := b.symm.trans e
    rw [h0, hz] at e
    obtain ⟨l1, l2⟩ := aead_lens (demoH.bytes ⟨0, 16, 100⟩) (demoH.bytes ⟨16, 16, 84⟩) [] [16]
    obtain ⟨l3, l4⟩ := aead_lens (demoH.bytes ⟨0, 16, 100⟩) (demoH.bytes ⟨16, 16, 84⟩) [] [227]
    obtain ⟨e1, e2⟩ := List.append_inj e (by rw [List.length_append, l1, l3]; rfl)
    have e1 : (Spec.aead (demoH.bytes ⟨0, 16, 100⟩) (demoH.bytes ⟨16, 16, 84⟩) [] [16]).1 = (Spec.aead (demoH.bytes ⟨0, 16, 100⟩) (demoH.bytes ⟨16, 16, 84⟩) [] [227]).1 := e1
    exact absurd (aead_inj _ _ _ _ _ e1) (by decide)
  · intro e
    have e1 := bytes_frame g ⟨32, 1, 68⟩ (by rw [hk]; simp [Slice.Valid]) (Or.inr (Nat.zero_le _))
    rw [hp] at e1
    have := e1.symm.trans e
    rw [h0] at this
    exact absurd this (by decide)

/-- The specification at the first vector of the LWC hash file, evaluated through the refinement. -/
example : (Spec.hash [] 32) = Cipher.hx 32 0xEA152F2B47BCE24EFB66C479D4ADF17BD324D806E85FF75EE369EE50DC8F8BD1 := by
  have r := absorbAny_rel x0_rel [] 16 (by omega) (by omega) 3
  have s := (squeezeAny_rel r.toRel (by decide) 32 0x40).1
  refine Eq.trans s.symm ?_
  decide +kernel

end Verif.Xoodyak
