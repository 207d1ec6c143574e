import Verif.Aead.CipherInv
/-
Facts about the OCB specification: lengths, and decryption inverts encryption.
-/
namespace Verif.Aead
open Verif.Mode (chunks mapAcc)
open Verif.Mode.Spec (natBe beNat)

theorem ocbMap_cons (f E : Bytes → Bytes) (O : Bytes) (i : Nat) (b : Bytes) (l : List Bytes) :
    ocbMap f E O i (b :: l) =
      xorb (f (xorb b (Spec.ocbOffset E O i))) (Spec.ocbOffset E O i) :: ocbMap f E O (i + 1) l := rfl

theorem ocbMap_length (f E : Bytes → Bytes) (O : Bytes) (i : Nat) (l : List Bytes) : (ocbMap f E O i l).length = l.length := by
  simp [ocbMap]

theorem ocbMap_all (f E : Bytes → Bytes) (hf : ∀ b, b.length = 16 → (f b).length = 16) (O : Bytes) (hO : O.length = 16) (i : Nat)
    (l : List Bytes) (hl : ∀ b ∈ l, b.length = 16) : ∀ b ∈ ocbMap f E O i l, b.length = 16 := by
  induction l generalizing i with
  | nil => simp [ocbMap]
  | cons x l ih =>
    rw [ocbMap_cons]
    intro b hb
    rcases List.mem_cons.mp hb with rfl | hb
    · rw [xorb_length, hf _ (by rw [xorb_length, hl x (by simp), ocbOffset_length E O hO]; rfl), ocbOffset_length E O hO]; rfl
    · exact ih (i + 1) (fun y hy => hl y (by simp [hy])) b hb

theorem ocbMap_inv (f g E : Bytes → Bytes) (hf : ∀ b, b.length = 16 → (f b).length = 16)
    (hg : ∀ b, b.length = 16 → g (f b) = b) (O : Bytes) (hO : O.length = 16) (i : Nat)
    (l : List Bytes) (hl : ∀ b ∈ l, b.length = 16) : ocbMap g E O i (ocbMap f E O i l) = l := by
  induction l generalizing i with
  | nil => rfl
  | cons x l ih =>
    have hx := hl x (by simp)
    have ho := ocbOffset_length E O hO i
    have h1 : (xorb x (Spec.ocbOffset E O i)).length = 16 := by rw [xorb_length, hx, ho]; rfl
    rw [ocbMap_cons, ocbMap_cons, ih (i + 1) (fun y hy => hl y (by simp [hy])),
      xorb_xorb_cancel_right _ _ (by rw [hf _ h1, ho]), hg _ h1, xorb_xorb_cancel_right _ _ (by rw [hx, ho])]

theorem fullBlocks_all (X : Bytes) : ∀ b ∈ Spec.fullBlocks X, b.length = 16 := by
  apply Mode.chunks_all_len 16 (by decide)
  rw [List.length_take, Nat.min_eq_left (by omega)]; exact Nat.dvd_mul_right _ _

theorem fullBlocks_flatten (X : Bytes) : (Spec.fullBlocks X).flatten = X.take (16 * (X.length / 16)) :=
  Mode.chunks_flatten 16 (by decide) _

theorem fullBlocks_length (X : Bytes) : (Spec.fullBlocks X).length = X.length / 16 := by
  have h1 := Mode.flatten_length_of_all 16 _ (fullBlocks_all X)
  rw [fullBlocks_flatten, List.length_take, Nat.min_eq_left (by omega)] at h1
  omega

theorem full_last (X : Bytes) : (Spec.fullBlocks X).flatten ++ Spec.lastPart X = X := by
  rw [fullBlocks_flatten]; exact List.take_append_drop _ _

theorem parts_of (l : List Bytes) (hl : ∀ b ∈ l, b.length = 16) (r : Bytes) (hr : r.length < 16) :
    (l.flatten ++ r).length / 16 = l.length ∧ Spec.fullBlocks (l.flatten ++ r) = l ∧ Spec.lastPart (l.flatten ++ r) = r := by
  have h1 := Mode.flatten_length_of_all 16 l hl
  have h2 : (l.flatten ++ r).length / 16 = l.length := by rw [List.length_append, h1]; omega
  refine ⟨h2, ?_, ?_⟩
  · unfold Spec.fullBlocks
    rw [h2, List.take_left' h1, Mode.chunks_of_flatten 16 (by decide) _ hl]
  · unfold Spec.lastPart
    rw [h2, List.drop_left' h1]

theorem ocbStart_length (E : Bytes → Bytes) (tau : Nat) (N : Bytes) : (Spec.ocbStart E tau N).length = 16 := Mode.natBe_len _ _

theorem ocbCrypt_eq (f E : Bytes → Bytes) (tau : Nat) (N X : Bytes) : Spec.ocbCrypt f E tau N X =
    (ocbMap f E (Spec.ocbStart E tau N) 1 (Spec.fullBlocks X)).flatten ++
      xorb (Spec.lastPart X) (E (xorb (Spec.ocbOffset E (Spec.ocbStart E tau N) (X.length / 16)) (Spec.ocbLstar E))) := rfl

section
variable {c : BlockCipher} (h16 : c.bs = 16)
include h16

theorem ocbPad_length (O : Bytes) (hO : O.length = 16) (i : Nat) :
    (c.E (xorb (Spec.ocbOffset c.E O i) (Spec.ocbLstar c.E))).length = 16 := by
  apply lenE16 h16
  rw [xorb_length, ocbOffset_length _ _ hO]
  unfold Spec.ocbLstar
  rw [lenE16 h16 _ (by simp)]; rfl

theorem ocbCrypt_length (f : Bytes → Bytes) (hf : ∀ b, b.length = 16 → (f b).length = 16) (tau : Nat) (N X : Bytes) :
    (Spec.ocbCrypt f c.E tau N X).length = X.length := by
  have hO := ocbStart_length c.E tau N
  rw [ocbCrypt_eq, List.length_append, xorb_length, ocbPad_length h16 _ hO,
    Mode.flatten_length_of_all 16 _ (ocbMap_all f c.E hf _ hO 1 _ (fullBlocks_all X)), ocbMap_length, fullBlocks_length,
    lastPart_length]
  omega

theorem ocbCrypt_parts (f : Bytes → Bytes) (hf : ∀ b, b.length = 16 → (f b).length = 16) (tau : Nat) (N X : Bytes) :
    Spec.fullBlocks (Spec.ocbCrypt f c.E tau N X) = ocbMap f c.E (Spec.ocbStart c.E tau N) 1 (Spec.fullBlocks X) ∧
    Spec.lastPart (Spec.ocbCrypt f c.E tau N X) =
      xorb (Spec.lastPart X) (c.E (xorb (Spec.ocbOffset c.E (Spec.ocbStart c.E tau N) (X.length / 16)) (Spec.ocbLstar c.E))) := by
  have hO := ocbStart_length c.E tau N
  rw [ocbCrypt_eq]
  exact (parts_of _ (ocbMap_all f c.E hf _ hO 1 _ (fullBlocks_all X)) _ (by
    rw [xorb_length, ocbPad_length h16 _ hO, lastPart_length]; omega)).2

theorem ocbCrypt_inv (f g : Bytes → Bytes) (hf : ∀ b, b.length = 16 → (f b).length = 16)
    (hg : ∀ b, b.length = 16 → g (f b) = b) (tau : Nat) (N X : Bytes) :
    Spec.ocbCrypt g c.E tau N (Spec.ocbCrypt f c.E tau N X) = X := by
  have hO := ocbStart_length c.E tau N
  obtain ⟨h1, h2⟩ := ocbCrypt_parts h16 f hf tau N X
  rw [ocbCrypt_eq g, h1, h2, ocbCrypt_length h16 f hf, ocbMap_inv f g c.E hf hg _ hO 1 _ (fullBlocks_all X),
    xorb_xorb_cancel_right _ _ (by rw [ocbPad_length h16 _ hO, lastPart_length]; omega), full_last]

theorem ocb_dec_enc (tau : Nat) (N X : Bytes) : Spec.ocbCrypt c.D c.E tau N (Spec.ocbCrypt c.E c.E tau N X) = X :=
  ocbCrypt_inv h16 c.E c.D (lenE16 h16) (fun b hb => c.DE b (by rw [hb, h16])) tau N X

theorem ocb_enc_dec (tau : Nat) (N X : Bytes) : Spec.ocbCrypt c.E c.E tau N (Spec.ocbCrypt c.D c.E tau N X) = X :=
  ocbCrypt_inv h16 c.D c.E (lenD16 h16) (fun b hb => c.ED b (by rw [hb, h16])) tau N X

theorem foldl_xorb_length (l : List Bytes) (hl : ∀ b ∈ l, b.length = 16) (s : Bytes) (hs : s.length = 16) :
    (l.foldl xorb s).length = 16 := by
  clear h16
  induction l generalizing s with
  | nil => exact hs
  | cons b l ih => exact ih (fun x hx => hl x (by simp [hx])) _ (by rw [xorb_length, hs, hl b (by simp)]; rfl)

theorem ocbHash_length (A : Bytes) : (Spec.ocbHash c.E A).length = 16 := by
  have hS : (Spec.xorAll (((Spec.fullBlocks A).zipIdx 1).map fun (a, i) =>
      c.E (xorb a (Spec.ocbOffset c.E (List.replicate 16 0) i)))).length = 16 := by
    apply foldl_xorb_length h16
    · intro b hb
      obtain ⟨⟨a, i⟩, ha, rfl⟩ := List.mem_map.mp hb
      have : a ∈ Spec.fullBlocks A := List.fst_mem_of_mem_zipIdx ha
      apply lenE16 h16
      rw [xorb_length, fullBlocks_all A a this, ocbOffset_length _ _ (by simp)]; rfl
    · simp
  unfold Spec.ocbHash
  simp only
  split
  · exact hS
  · rw [xorb_length, hS, lenE16 h16]
    · rfl
    · rw [xorb_length, pad10_length _ (by rw [lastPart_length]; omega), xorb_length, ocbOffset_length _ _ (by simp)]
      unfold Spec.ocbLstar
      rw [lenE16 h16 _ (by simp)]; rfl

theorem ocbTag_length (tau : Nat) (ht : tau ≤ 16) (N A P : Bytes) : (Spec.ocbTag c.E tau N A P).length = tau := by
  have hO := ocbStart_length c.E tau N
  have hL : (Spec.ocbLstar c.E).length = 16 := lenE16 h16 _ (by simp)
  have hck := foldl_xorb_length h16 _ (fullBlocks_all P) (List.replicate 16 0) (by simp)
  have hOm := ocbOffset_length c.E _ hO (P.length / 16)
  have hLd : (Spec.ocbLdollar c.E).length = 16 := gfDouble_length _
  have hH := ocbHash_length h16 A
  unfold Spec.ocbTag Spec.xorAll
  simp only
  rw [List.length_take]
  split
  · rw [xorb_length, lenE16 h16 _ (by rw [xorb_length, xorb_length, hck, hOm, hLd]; rfl), hH]; omega
  · rw [xorb_length, lenE16 h16 _ (by
      rw [xorb_length, xorb_length, xorb_length, xorb_length, hck, hOm, hLd, hL, pad10_length _ (by rw [lastPart_length]; omega)]; rfl),
      hH]; omega

theorem ocb_length (tau : Nat) (ht : tau ≤ 16) (N P A : Bytes) : (Spec.ocb c.E tau N P A).length = P.length + tau := by
  unfold Spec.ocb
  rw [List.length_append, ocbCrypt_length h16 _ (lenE16 h16), ocbTag_length h16 _ ht]

/-- A string is the encryption of at most one plaintext, and which one. -/
theorem ocb_iff (tau : Nat) (ht : tau ≤ 16) (N A P C T : Bytes) (hl : P.length = C.length) :
    C ++ T = Spec.ocb c.E tau N P A ↔ P = Spec.ocbCrypt c.D c.E tau N C ∧ T = Spec.ocbTag c.E tau N A P := by
  have hcl := ocbCrypt_length h16 c.E (lenE16 h16) tau N P
  unfold Spec.ocb
  constructor
  · intro h
    obtain ⟨h1, h2⟩ := List.append_inj h (by rw [hcl, hl])
    exact ⟨by rw [h1, ocb_dec_enc h16], h2⟩
  · rintro ⟨h1, h2⟩
    rw [← h2, h1, ocb_enc_dec h16]
end

end Verif.Aead
