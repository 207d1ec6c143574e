import Verif.Ascon.AsconRefine
import Verif.Cipher.Common
/-!
# C148: Ascon-128 and Ascon-128a

`Spec.aead` (AsconSpec.lean) is the published algorithm on bytes; `var false` is Ascon-128, `var true` Ascon-128a.
-/
namespace Verif.Ascon
open Verif Verif.Aead

variable {a : Bool} {key : Bytes} {o : Obj}

theorem newCipher_ok (h : newCipher a key = .ok o) : key.length = 16 ∧ o = obj a key := by
  unfold newCipher at h
  split at h
  · exact absurd h (by simp)
  · next hk => exact ⟨by omega, (Res.ok.inj h).symm⟩

theorem aead_eq (h : newCipher a key = .ok o) {N A M : Bytes} (hN : N.length = 16) : (core o).aead N A M = Spec.aead (var a) key N A M := by
  obtain ⟨hk, rfl⟩ := newCipher_ok h
  exact enc_spec a key N A M hk hN

/-- C148: keys are exactly the 16-byte strings. -/
theorem C148_keys (a : Bool) (key : Bytes) : (∃ o, newCipher a key = .ok o) ↔ key.length = 16 := by
  unfold newCipher
  by_cases h : key.length = 16
  · simp [h]
  · simp [h]

/-- C148: `Seal` appends the published ciphertext and tag to `dst`, whether its output lies apart from the plaintext or exactly over it. -/
theorem C148_seal (ho : newCipher a key = .ok o) (h : Heap) (dst nonce pt ad : Slice) (vd : dst.Valid h) (vp : pt.Valid h)
    (hn : nonce.len = 16) (ap : Apart dst (pt.len + 16) pt ∨ InPlace dst (pt.len + 16) pt) :
    ∃ h' r, sealA o h dst nonce pt ad = .ok (h', r) ∧
      Appended h dst (Spec.aead (var a) key (h.bytes nonce) (h.bytes ad) (h.bytes pt)) h' r := by
  have hN : (h.bytes nonce).length = 16 := by rw [← hn]; exact Mem.read_length ..
  rw [← aead_eq ho hN]
  exact gSeal_exact (core_good o) h dst nonce pt ad vd vp hn ap

/-- C148: exactly which calls of `Seal` panic. -/
theorem C148_seal_panics_iff (o : Obj) (h : Heap) (dst nonce pt ad : Slice) (vp : pt.Valid h) :
    sealA o h dst nonce pt ad = .panic ↔ nonce.len ≠ 16 ∨ PartialOverlap dst (pt.len + 16) pt :=
  gSeal_panics_iff (c := core o) h dst nonce pt ad vp

/-- C148: `Open` accepts the published ciphertext of any plaintext and appends that plaintext. -/
theorem C148_open_accepts (ho : newCipher a key = .ok o) (h : Heap) (dst nonce ct ad : Slice) (vd : dst.Valid h) (vc : ct.Valid h)
    (hn : nonce.len = 16) (P : Bytes) (hct : h.bytes ct = Spec.aead (var a) key (h.bytes nonce) (h.bytes ad) P)
    (ap : Apart dst P.length ct ∨ InPlace dst P.length ct) :
    ∃ h' r, openA o h dst nonce ct ad = .ok (h', some r) ∧ Appended h dst P h' r := by
  have hN : (h.bytes nonce).length = 16 := by rw [← hn]; exact Mem.read_length ..
  rw [← aead_eq ho hN] at hct
  exact gOpen_accepts (core_good o) h dst nonce ct ad vd vc hn P hct ap

/-- C148: `Open` refuses every other string, and leaves zeros, not plaintext, where its output would have gone. -/
theorem C148_open_rejects (ho : newCipher a key = .ok o) (h : Heap) (dst nonce ct ad : Slice) (vd : dst.Valid h) (vc : ct.Valid h)
    (hn : nonce.len = 16) (hct : ¬ ∃ P, h.bytes ct = Spec.aead (var a) key (h.bytes nonce) (h.bytes ad) P)
    (ap : Apart dst (ct.len - 16) ct ∨ InPlace dst (ct.len - 16) ct) :
    ∃ h', openA o h dst nonce ct ad = .ok (h', none) ∧ (h' = h ∨ ∃ r, Appended h dst (List.replicate (ct.len - 16) 0) h' r) := by
  have hN : (h.bytes nonce).length = 16 := by rw [← hn]; exact Mem.read_length ..
  refine gOpen_rejects (core_good o) h dst nonce ct ad vd vc hn ?_ ap
  rintro ⟨P, hP⟩
  exact hct ⟨P, by rw [hP, aead_eq ho hN]⟩

/-- C148: what one object sealed, any object for the same key opens. -/
theorem C148_roundtrip {o2 : Obj} (ho : newCipher a key = .ok o) (ho2 : newCipher a key = .ok o2) (h : Heap) (dst nonce pt ad : Slice)
    (vd : dst.Valid h) (vn : nonce.Valid h) (vp : pt.Valid h) (va : ad.Valid h) (hd0 : dst.len = 0) (hn : nonce.len = 16)
    (ap : Apart dst (pt.len + 16) pt ∨ InPlace dst (pt.len + 16) pt) (an : Apart dst (pt.len + 16) nonce)
    (aa : Apart dst (pt.len + 16) ad) :
    ∃ h1 ct, sealA o h dst nonce pt ad = .ok (h1, ct) ∧
      ∀ dst2 : Slice, dst2.Valid h1 → (Apart dst2 pt.len ct ∨ InPlace dst2 pt.len ct) →
        ∃ h2 r, openA o2 h1 dst2 nonce ct ad = .ok (h2, some r) ∧ Appended h1 dst2 (h.bytes pt) h2 r := by
  have : o2 = o := Res.ok.inj (ho2.symm.trans ho)
  subst this
  exact gRoundtrip (core_good o2) h dst nonce pt ad vd vn vp va hd0 hn ap an aa

/-- C148: the permutation `p^k` is a bijection of the 40-byte states, so that different nonces or keys never start from the
same state, and equal states can be told back to equal inputs.  Stated for the code's rounds. -/
theorem C148_round_injective (C : W) (s t : St) (h : round s C = round t C) : s = t := by
  have L : ∀ (x y : W) (r1 r2 : Nat), r1 < 64 → r2 < 64 → x ^^^ rotr x r1 ^^^ rotr x r2 = y ^^^ rotr y r1 ^^^ rotr y r2 → x = y := by
    intro x y r1 r2 h1 h2 e
    -- the difference `d` satisfies `d j = d (j+r1) xor d (j+r2)`; squaring six times gives `d = d xor d xor d` shifted by 0
    have key : ∀ k : Nat, ∀ j < 64, (x ^^^ y).getLsbD j = ((x ^^^ y).getLsbD ((j + 2 ^ k * r1) % 64) ^^ (x ^^^ y).getLsbD ((j + 2 ^ k * r2) % 64)) := by
      intro k
      induction k with
      | zero =>
        intro j hj
        have := congrArg (fun w : W => w.getLsbD j) e
        simp only [BitVec.getLsbD_xor, rotr_bit _ _ _ h1 hj, rotr_bit _ _ _ h2 hj] at this
        simp only [BitVec.getLsbD_xor, Nat.pow_zero, Nat.one_mul]
        generalize x.getLsbD j = a1 at *
        generalize y.getLsbD j = b1 at *
        generalize x.getLsbD ((j + r1) % 64) = a2 at *
        generalize y.getLsbD ((j + r1) % 64) = b2 at *
        generalize x.getLsbD ((j + r2) % 64) = a3 at *
        generalize y.getLsbD ((j + r2) % 64) = b3 at *
        revert this; revert a1 b1 a2 b2 a3 b3; decide
      | succ k ih =>
        intro j hj
        have e0 := ih j hj
        have e1 := ih ((j + 2 ^ k * r1) % 64) (Nat.mod_lt _ (by omega))
        have e2 := ih ((j + 2 ^ k * r2) % 64) (Nat.mod_lt _ (by omega))
        have m : ∀ p q : Nat, ((j + p) % 64 + q) % 64 = (j + (p + q)) % 64 := by intro p q; omega
        rw [m, m] at e1 e2
        rw [show 2 ^ (k + 1) * r1 = 2 ^ k * r1 + 2 ^ k * r1 by rw [Nat.pow_succ, Nat.mul_right_comm]; omega,
          show 2 ^ (k + 1) * r2 = 2 ^ k * r2 + 2 ^ k * r2 by rw [Nat.pow_succ, Nat.mul_right_comm]; omega]
        rw [Nat.add_comm (2 ^ k * r2) (2 ^ k * r1)] at e2
        rw [e0, e1, e2]
        generalize (x ^^^ y).getLsbD ((j + (2 ^ k * r1 + 2 ^ k * r1)) % 64) = u1
        generalize (x ^^^ y).getLsbD ((j + (2 ^ k * r1 + 2 ^ k * r2)) % 64) = u2
        generalize (x ^^^ y).getLsbD ((j + (2 ^ k * r2 + 2 ^ k * r2)) % 64) = u3
        revert u1 u2 u3; decide
    have z : x ^^^ y = 0#64 := by
      apply BitVec.eq_of_getLsbD_eq
      intro j hj
      have := key 6 j hj
      rw [show (j + 2 ^ 6 * r1) % 64 = j by omega, show (j + 2 ^ 6 * r2) % 64 = j by omega] at this
      rw [BitVec.getLsbD_zero]
      generalize (x ^^^ y).getLsbD j = u at *
      revert this; revert u; decide
    exact BitVec.xor_eq_zero_iff.mp z
  have hm : mid s C = mid t C := by
    rw [round_eq, round_eq] at h
    unfold linW at h
    obtain ⟨h0, h1, h2, h3, h4⟩ := St.mk.inj h
    have g0 := L _ _ _ _ (by omega) (by omega) h0
    have g1 := L _ _ _ _ (by omega) (by omega) h1
    have g2 := L _ _ _ _ (by omega) (by omega) h2
    have g3 := L _ _ _ _ (by omega) (by omega) h3
    have g4 := L _ _ _ _ (by omega) (by omega) h4
    revert g0 g1 g2 g3 g4
    generalize mid s C = u
    generalize mid t C = v
    intro g0 g1 g2 g3 g4
    cases u; cases v
    simp only [St.mk.injEq]
    exact ⟨g0, g1, g2, g3, g4⟩
  have B : ∀ a b c d e a' b' c' d' e' : Bool,
      ((a ^^ e) ^^ (!b && (c ^^ b)) ^^ ((e ^^ d) ^^ (!(a ^^ e) && b))) = ((a' ^^ e') ^^ (!b' && (c' ^^ b')) ^^ ((e' ^^ d') ^^ (!(a' ^^ e') && b'))) →
      (b ^^ (!(c ^^ b) && d) ^^ ((a ^^ e) ^^ (!b && (c ^^ b)))) = (b' ^^ (!(c' ^^ b') && d') ^^ ((a' ^^ e') ^^ (!b' && (c' ^^ b')))) →
      ((c ^^ b) ^^ (!d && (e ^^ d))) = ((c' ^^ b') ^^ (!d' && (e' ^^ d'))) →
      (d ^^ (!(e ^^ d) && (a ^^ e)) ^^ ((c ^^ b) ^^ (!d && (e ^^ d)))) = (d' ^^ (!(e' ^^ d') && (a' ^^ e')) ^^ ((c' ^^ b') ^^ (!d' && (e' ^^ d')))) →
      ((e ^^ d) ^^ (!(a ^^ e) && b)) = ((e' ^^ d') ^^ (!(a' ^^ e') && b')) → a = a' ∧ b = b' ∧ c = c' ∧ d = d' ∧ e = e' := by decide +kernel
  have bits : ∀ j < 64, s.x0.getLsbD j = t.x0.getLsbD j ∧ s.x1.getLsbD j = t.x1.getLsbD j ∧
      (s.x2 ^^^ C).getLsbD j = (t.x2 ^^^ C).getLsbD j ∧ s.x3.getLsbD j = t.x3.getLsbD j ∧ s.x4.getLsbD j = t.x4.getLsbD j := by
    intro j hj
    unfold mid at hm
    obtain ⟨h0, h1, h2, h3, h4⟩ := St.mk.inj hm
    have g0 := congrArg (fun w : W => w.getLsbD j) h0
    have g1 := congrArg (fun w : W => w.getLsbD j) h1
    have g2 := congrArg (fun w : W => !w.getLsbD j) h2
    have g3 := congrArg (fun w : W => w.getLsbD j) h3
    have g4 := congrArg (fun w : W => w.getLsbD j) h4
    simp only [BitVec.getLsbD_xor, BitVec.getLsbD_and, BitVec.getLsbD_not, hj, decide_true, Bool.true_and, Bool.not_not] at g0 g1 g2 g3 g4
    simp only [BitVec.getLsbD_xor]
    exact B _ _ _ _ _ _ _ _ _ _ g0 g1 g2 g3 g4
  cases s; cases t
  simp only [St.mk.injEq]
  refine ⟨BitVec.eq_of_getLsbD_eq fun j hj => (bits j hj).1, BitVec.eq_of_getLsbD_eq fun j hj => (bits j hj).2.1, ?_,
    BitVec.eq_of_getLsbD_eq fun j hj => (bits j hj).2.2.2.1, BitVec.eq_of_getLsbD_eq fun j hj => (bits j hj).2.2.2.2⟩
  have := BitVec.eq_of_getLsbD_eq fun j hj => (bits j hj).2.2.1
  have := congrArg (· ^^^ C) this
  simpa only [BitVec.xor_assoc, BitVec.xor_self, BitVec.xor_zero] using this

/-- C148: the three permutations are injective: two different inputs never reach the same state. -/
theorem C148_perm_injective (s t : St) : (p12 s = p12 t → s = t) ∧ (p8 s = p8 t → s = t) ∧ (p6 s = p6 t → s = t) := by
  have F : ∀ (l : List W) (s t : St), l.foldl round s = l.foldl round t → s = t := by
    intro l
    induction l with
    | nil => intro s t h; exact h
    | cons c l ih => intro s t h; exact C148_round_injective c s t (ih _ _ h)
  exact ⟨F _ s t, F _ s t, F _ s t⟩

/-- A heap for the witnesses below. -/
def demoHeap : Heap := ⟨fun a => BitVec.ofNat 8 (7 * a + 3), 100⟩

/-- Non-vacuity: a key, a heap and slices that meet the hypotheses of `C148_seal` and `C148_roundtrip`, in place. -/
example : (∃ o, newCipher true (List.replicate 16 (7 : Byte)) = .ok o) ∧ Slice.Valid ⟨0, 16, 16⟩ demoHeap ∧
    Slice.Valid ⟨20, 21, 40⟩ demoHeap ∧ Slice.Valid ⟨70, 5, 5⟩ demoHeap ∧ Slice.Valid ⟨20, 0, 40⟩ demoHeap ∧
    InPlace ⟨20, 0, 40⟩ (21 + 16) ⟨20, 21, 40⟩ ∧ Apart ⟨20, 0, 40⟩ (21 + 16) ⟨0, 16, 16⟩ ∧
    Apart ⟨20, 0, 40⟩ (21 + 16) ⟨70, 5, 5⟩ := by
  refine ⟨(C148_keys _ _).mpr (by simp), ?_, ?_, ?_, ?_, ?_, ?_, ?_⟩
  all_goals first | (unfold Slice.Valid demoHeap; simp) | (unfold InPlace; simp) | (unfold Apart; simp)

/-- The specification at the first vectors of the submission's known-answer files: empty plaintext and data. -/
example : let K := Cipher.hx 16 0x000102030405060708090A0B0C0D0E0F
    Spec.aead Spec.ascon128 K K [] [] = Cipher.hx 16 0xE355159F292911F794CB1432A0103A8A := by
  intro K
  refine (enc_spec false K K [] [] (by decide) (by decide)).symm.trans ?_
  unfold encB encrypt128 start ad128
  decide +kernel
example : let K := Cipher.hx 16 0x000102030405060708090A0B0C0D0E0F
    Spec.aead Spec.ascon128a K K [] [] = Cipher.hx 16 0x7A834E6F09210957067B10FD831F0078 := by
  intro K
  refine (enc_spec true K K [] [] (by decide) (by decide)).symm.trans ?_
  unfold encB encrypt128a start ad128a
  decide +kernel

end Verif.Ascon
