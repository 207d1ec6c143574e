import Verif.Hash.Md2Spec
import Verif.Cipher.Common
namespace Verif.Hash.Md2
open Spec

theorem pass_aux (rest : Bytes) : ∀ (pre : Bytes) (t : Byte),
    (List.range' pre.length rest.length).foldl (fun (ts : Byte × Bytes) j => let v := ts.2.getD j 0 ^^^ sb ts.1; (v, ts.2.set j v))
      (t, pre ++ rest) = ((row t rest).1, pre ++ (row t rest).2) := by
  induction rest with
  | nil => intro pre t; simp [row]
  | cons x xs ih =>
    intro pre t
    rw [List.length_cons, List.range'_succ, List.foldl_cons]
    have h := ih (pre ++ [x ^^^ sb t]) (x ^^^ sb t)
    simp only [List.length_append, List.length_cons, List.length_nil, Nat.zero_add, List.append_assoc, List.singleton_append] at h
    simp only [row]
    rw [← h]
    congr 1
    simp

theorem pass_eq (t : Byte) (s : Bytes) (h : s.length = 48) : pass (t, s) = row t s := by
  have := pass_aux s [] t
  simp only [List.length_nil, h, List.nil_append] at this
  rw [pass, List.range_eq_range', this]

theorem row_length (t : Byte) (s : Bytes) : (row t s).2.length = s.length := by
  induction s generalizing t with
  | nil => rfl
  | cons x xs ih => simp [row, ih]

theorem passes_aux (n : Nat) : ∀ (i : Nat) (t : Byte) (s : Bytes), s.length = 48 →
    ((List.range' i n).foldl (fun ts i => let r := pass ts; (r.1 + BitVec.ofNat 8 i, r.2)) (t, s)).2 = rounds n i t s := by
  induction n with
  | zero => intros; rfl
  | succ n ih =>
    intro i t s h
    rw [List.range'_succ, List.foldl_cons, rounds, ← ih (i + 1) _ _ (by rw [row_length, h])]
    simp only [pass_eq t s h]

theorem passes_eq (s : Bytes) (h : s.length = 48) : passes s = rounds 18 0 0 s := by
  rw [passes, List.range_eq_range', passes_aux 18 0 0 s h]

theorem rounds_length (n i : Nat) (t : Byte) (s : Bytes) : (rounds n i t s).length = s.length := by
  induction n generalizing i t s with
  | zero => rfl
  | succ n ih => rw [rounds, ih, row_length]

theorem check_aux (rest : Bytes) : ∀ (pre qre q : Bytes) (t : Byte), pre.length = qre.length → rest.length = q.length →
    ((List.range' pre.length rest.length).foldl
      (fun (tc : Byte × Bytes) i => let v := tc.2.getD i 0 ^^^ sb ((qre ++ q).getD i 0 ^^^ tc.1); (v, tc.2.set i v))
      (t, pre ++ rest)).2 = pre ++ checkRow t rest q := by
  induction rest with
  | nil => intro pre qre q t _ _; cases q <;> simp [checkRow]
  | cons x xs ih =>
    intro pre qre q t h1 h2
    cases q with
    | nil => simp at h2
    | cons m ms =>
      rw [List.length_cons, List.range'_succ, List.foldl_cons]
      have h := ih (pre ++ [x ^^^ sb (m ^^^ t)]) (qre ++ [m]) ms (x ^^^ sb (m ^^^ t)) (by simp [h1]) (by simpa using h2)
      simp only [List.length_append, List.length_cons, List.length_nil, Nat.zero_add, List.append_assoc, List.singleton_append] at h
      simp only [checkRow]
      rw [← h]
      congr 2
      simp [h1]

theorem check_eq (c p : Bytes) (hc : c.length = 16) (hp : p.length = 16) : check c p = checkBlock c p := by
  have := check_aux c [] [] p (c.getD 15 0) rfl (by omega)
  simp only [List.length_nil, hc, List.nil_append] at this
  rw [check, List.range_eq_range', this, checkBlock]
  congr 1
  rw [List.getLastD_eq_getLast?, List.getLast?_eq_getElem?, hc, List.getD_eq_getElem?_getD]

theorem list16 {α : Type} (s : List α) (h : s.length = 16) : ∃ a b c d e f g i j k l m n o p q, s = [a,b,c,d,e,f,g,i,j,k,l,m,n,o,p,q] := by
  match s, h with
  | [a,b,c,d,e,f,g,i,j,k,l,m,n,o,p,q], _ => exact ⟨a,b,c,d,e,f,g,i,j,k,l,m,n,o,p,q, rfl⟩

theorem load_eq (s p : Bytes) (hs : s.length = 48) (hp : p.length = 16) : load s p = s.take 16 ++ p ++ xorb (s.take 16) p := by
  have h1 : (s.take 16).length = 16 := by simp [hs]
  have h2 : ((s.drop 16).take 16).length = 16 := by simp [hs]
  have h3 : ((s.drop 16).drop 16).length = 16 := by simp [hs]
  have e : s = s.take 16 ++ ((s.drop 16).take 16 ++ (s.drop 16).drop 16) := by rw [List.take_append_drop, List.take_append_drop]
  generalize s.take 16 = A at *
  generalize (s.drop 16).take 16 = B at *
  generalize (s.drop 16).drop 16 = C at *
  subst e
  obtain ⟨a,b,c,d,e,f,g,i,j,k,l,m,n,o,q,r, rfl⟩ := list16 A h1
  obtain ⟨a2,b2,c2,d2,e2,f2,g2,i2,j2,k2,l2,m2,n2,o2,q2,r2, rfl⟩ := list16 B h2
  obtain ⟨a3,b3,c3,d3,e3,f3,g3,i3,j3,k3,l3,m3,n3,o3,q3,r3, rfl⟩ := list16 C h3
  obtain ⟨a4,b4,c4,d4,e4,f4,g4,i4,j4,k4,l4,m4,n4,o4,q4,r4, rfl⟩ := list16 p hp
  simp [load, List.range_succ, xorb, BitVec.xor_comm]

/-- The two halves of the state evolve separately, as in the RFC. -/
def Good (d : St) (h c : Bytes) : Prop := d.s.length = 48 ∧ d.s.take 16 = h ∧ d.digest = c ∧ c.length = 16

theorem checkRow_length (t : Byte) (c m : Bytes) : (checkRow t c m).length = c.length := by
  induction c generalizing t m with
  | nil => cases m <;> rfl
  | cons x xs ih => cases m with
    | nil => rfl
    | cons y ys => simp [checkRow, ih]

theorem block_good (d : St) (h c b : Bytes) (hb : b.length = 16) (hg : Good d h c) :
    Good (block d b) (compress h b) (checkBlock c b) := by
  obtain ⟨h1, h2, h3, h4⟩ := hg
  have hl : (load d.s b).length = 48 := by rw [load_eq _ _ h1 hb]; simp [h1, hb]
  refine ⟨?_, ?_, ?_, ?_⟩
  · simp only [block]; rw [passes_eq _ hl, rounds_length, hl]
  · simp only [block]; rw [passes_eq _ hl, load_eq _ _ h1 hb, compress, h2]
  · simp only [block]; rw [h3, check_eq _ _ h4 hb]
  · simp [checkBlock, checkRow_length, h4]

theorem fold_good (L : List Bytes) (hL : ∀ b ∈ L, b.length = 16) : ∀ (d : St) (h c : Bytes), Good d h c →
    Good (L.foldl block d) (L.foldl compress h) (L.foldl checkBlock c) := by
  induction L with
  | nil => intro d h c hg; exact hg
  | cons b L ih =>
    intro d h c hg
    have hb := block_good d h c b (hL b (List.mem_cons_self ..)) hg
    simp only [List.foldl_cons]
    exact ih (fun x hx => hL x (List.mem_cons_of_mem _ hx)) (block d b) (compress h b) (checkBlock c b) hb

theorem iv_good : Good iv (List.replicate 16 0) (List.replicate 16 0) := by
  unfold Good iv
  refine ⟨List.length_replicate, List.take_replicate, rfl, List.length_replicate⟩

theorem absorb_good (M : Bytes) : Good (absorb 16 block iv M) ((fullBlocks 16 M).foldl compress (List.replicate 16 0)) (checksum M) :=
  fold_good _ (fullBlocks_mem 16 M) _ _ _ iv_good

theorem checkSum_eq (d : Buf St) (M : Bytes) (h : Holds 16 block iv d M) : checkSum d = .ok (md2 M) := by
  have hn := h.nx
  obtain ⟨d1, e1, h1⟩ := bufWrite_holds 16 (by decide) block iv d M (List.replicate (16 - d.nx) (BitVec.ofNat 8 (16 - d.nx))) h
  have hpad : M ++ List.replicate (16 - d.nx) (BitVec.ofNat 8 (16 - d.nx)) = pad M := by rw [pad, hn]
  rw [hpad] at h1
  have hg := absorb_good (pad M)
  rw [← h1.s] at hg
  have hl : (pad M).length % 16 = 0 := by simp [pad]; omega
  obtain ⟨d2, e2, h2⟩ := bufWrite_holds 16 (by decide) block iv d1 (pad M) d1.s.digest h1
  have hl2 : (pad M ++ d1.s.digest).length % 16 = 0 := by
    rw [List.length_append, hg.2.2.1, hg.2.2.2]; omega
  have hg2 := absorb_good (pad M ++ d1.s.digest)
  rw [← h2.s] at hg2
  simp only [checkSum, write, e1, Res.bind_ok]
  rw [if_neg (by rw [h1.nx, hl]; simp), e2, Res.bind_ok, if_neg (by rw [h2.nx, hl2]; simp), hg2.2.1, hg.2.2.1, md2]

end Verif.Hash.Md2
