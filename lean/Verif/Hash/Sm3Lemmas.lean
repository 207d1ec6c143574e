import Verif.Hash.Sm3
import Verif.Hash.Sm3Spec
namespace Verif.Hash.Sm3
open Verif.Cipher

def W8.toV (s : W8) : Spec.V := (s.a, s.b, s.c, s.d, s.e, s.f, s.g, s.h)

theorem expand_aux (n : Nat) : ∀ (pre win : List W), win.length = 16 →
    (List.range' pre.length n).foldl (fun w k => let j := k + 16
      w ++ [P1 (w.getD (j - 16) 0 ^^^ w.getD (j - 9) 0 ^^^ rotl (w.getD (j - 3) 0) 15) ^^^ rotl (w.getD (j - 13) 0) 7 ^^^ w.getD (j - 6) 0])
      (pre ++ win) = pre ++ win ++ Spec.following n win := by
  induction n with
  | zero => intro pre win _; simp [Spec.following]
  | succ n ih =>
    intro pre win h
    obtain ⟨a, b, c, d, e, f, g, i, j, k, l, m, o, p, q, r, rfl⟩ : ∃ a b c d e f g i j k l m o p q r,
      win = [a, b, c, d, e, f, g, i, j, k, l, m, o, p, q, r] := by
      match win, h with
      | [a, b, c, d, e, f, g, i, j, k, l, m, o, p, q, r], _ => exact ⟨a, b, c, d, e, f, g, i, j, k, l, m, o, p, q, r, rfl⟩
    rw [List.range'_succ, List.foldl_cons, Spec.following]
    have := ih (pre ++ [a]) [b, c, d, e, f, g, i, j, k, l, m, o, p, q, r, Spec.nextW [a, b, c, d, e, f, g, i, j, k, l, m, o, p, q, r]] rfl
    simp only [List.length_append, List.length_cons, List.length_nil, Nat.zero_add, List.append_assoc, List.cons_append, List.nil_append] at this
    simp only [List.tail_cons, List.cons_append, List.nil_append, List.append_assoc]
    rw [← this]
    congr 1
    have g : ∀ i v (l : List W), l[i]? = some v → (pre ++ l).getD (pre.length + i) 0 = v := by
      intro i v l h
      rw [List.getD_eq_getElem?_getD, List.getElem?_append_right (by omega), Nat.add_sub_cancel_left, h]; rfl
    have e0 : pre.length + 16 - 16 = pre.length + 0 := by omega
    have e7 : pre.length + 16 - 9 = pre.length + 7 := by omega
    have e13 : pre.length + 16 - 3 = pre.length + 13 := by omega
    have e3 : pre.length + 16 - 13 = pre.length + 3 := by omega
    have e10 : pre.length + 16 - 6 = pre.length + 10 := by omega
    simp only [e0, e7, e13, e3, e10]
    rw [g 0 a _ rfl, g 7 i _ rfl, g 13 p _ rfl, g 3 d _ rfl, g 10 l _ rfl]
    rfl

theorem expand_eq (b : Bytes) : expand b = Spec.words b := by
  have := expand_aux 52 [] (ldBE 32 4 16 b) (by simp)
  simp only [List.length_nil, List.nil_append] at this
  rw [expand, List.range_eq_range', this, Spec.words]

theorem gg16 (x y z : W) : GG16 x y z = (x &&& y) ||| (~~~x &&& z) := by
  apply BitVec.eq_of_getLsbD_eq
  intro i hi
  simp only [GG16, BitVec.getLsbD_xor, BitVec.getLsbD_and, BitVec.getLsbD_or, BitVec.getLsbD_not, hi, decide_true, Bool.true_and]
  cases x.getLsbD i <;> cases y.getLsbD i <;> cases z.getLsbD i <;> rfl

theorem tbl : ∀ j < 64, tSbox.getD j 0 = rotl (Spec.T j) (j % 32) := by decide +kernel

theorem turn_lo (w : List W) (v : W8) (j : Nat) (h : j < 16) : (turn FF00 GG00 w v j).toV = Spec.round w j v.toV := by
  simp only [turn, W8.toV, Spec.round, Spec.FF, Spec.GG, if_pos h, tbl j (by omega)]
  rfl

theorem turn_hi (w : List W) (v : W8) (j : Nat) (h : 16 ≤ j) (h2 : j < 64) : (turn FF16 GG16 w v j).toV = Spec.round w j v.toV := by
  simp only [turn, W8.toV, Spec.round, Spec.FF, Spec.GG, if_neg (Nat.not_lt.2 h), tbl j h2, gg16]
  rfl

theorem fold_toV (l : List Nat) (t : W8 → Nat → W8) (r : Spec.V → Nat → Spec.V) (h : ∀ v, ∀ j ∈ l, (t v j).toV = r v.toV j) :
    ∀ v : W8, (l.foldl t v).toV = l.foldl r v.toV := by
  induction l with
  | nil => intro v; rfl
  | cons j l ih =>
    intro v
    rw [List.foldl_cons, List.foldl_cons, ih (fun v j hj => h v j (List.mem_cons_of_mem _ hj)), h v j (List.mem_cons_self ..)]

theorem block_eq (s : W8) (b : Bytes) : (block s b).toV = Spec.CF s.toV b := by
  have e : (List.range 64) = List.range' 0 16 ++ List.range' 16 48 := by decide
  rw [Spec.CF, e, List.foldl_append]
  rw [← fold_toV (List.range' 0 16) (turn FF00 GG00 (expand b)) (fun s j => Spec.round (Spec.words b) j s) (by
      intro v j hj
      rw [expand_eq, turn_lo _ _ _ (by have := List.mem_range'_1.1 hj; omega)]) s,
    ← fold_toV (List.range' 16 48) (turn FF16 GG16 (expand b)) (fun s j => Spec.round (Spec.words b) j s) (by
      intro v j hj
      have := List.mem_range'_1.1 hj
      rw [expand_eq, turn_hi _ _ _ (by omega) (by omega)])]
  simp only [block, W8.toV, Spec.xorV, BitVec.xor_comm]

theorem absorb_eq (s : W8) (L : List Bytes) : (L.foldl block s).toV = L.foldl Spec.CF s.toV := by
  induction L generalizing s with
  | nil => rfl
  | cons b L ih => rw [List.foldl_cons, List.foldl_cons, ih, block_eq]

abbrev Holds := Hash.Holds 64 block iv

theorem hx_length (n v : Nat) : (hx n v).length = n := by simp [hx]

/-- The length field the code stores is the bit length. -/
theorem lenField (n : Nat) :
    (leBytes 4 (((BitVec.ofNat 64 n / 64) >>> 23).setWidth 32).toNat).reverse ++
      (leBytes 4 (((BitVec.ofNat 64 n / 64) <<< 9 + (BitVec.ofNat 64 (n % 64) <<< 3)).setWidth 32).toNat).reverse = hx 8 (8 * n) := by
  rw [hx, leBytes_add 4 4, List.reverse_append]
  have h64 : (64 : BitVec 64).toNat = 64 := rfl
  have h1 : (((BitVec.ofNat 64 n / 64) >>> 23).setWidth 32).toNat = (8 * n / 256 ^ 4) % 256 ^ 4 := by
    simp only [BitVec.toNat_setWidth, BitVec.toNat_ushiftRight, BitVec.toNat_udiv, BitVec.toNat_ofNat, Nat.shiftRight_eq_div_pow, h64]
    omega
  have h2 : (((BitVec.ofNat 64 n / 64) <<< 9 + (BitVec.ofNat 64 (n % 64) <<< 3)).setWidth 32).toNat = (8 * n) % 256 ^ 4 := by
    simp only [BitVec.toNat_setWidth, BitVec.toNat_shiftLeft, BitVec.toNat_add, BitVec.toNat_udiv, BitVec.toNat_ofNat, Nat.shiftLeft_eq, h64]
    omega
  rw [h1, h2, leBytes_mod, leBytes_mod]

theorem put2 (x A B : Bytes) (hx : x.length = 64) (hA : A.length = 4) (hB : B.length = 4) :
    putAt (putAt x 56 A) 60 B = putAt x 56 (A ++ B) := by
  have e1 : putAt x 56 A = (x.take 56 ++ A) ++ x.drop 60 := by rw [putAt_fit x 56 A (by omega), hA]
  have l1 : (x.take 56 ++ A).length = 60 := by simp; omega
  have e2 := putAt_end (x.take 56 ++ A) (x.drop 60) B (by simp; omega)
  rw [l1] at e2
  rw [e1, e2, putAt_full x 56 (A ++ B) (by simp; omega) (by omega), List.take_of_length_le (l := A ++ B) (by simp; omega), List.append_assoc]

theorem checkSum_eq (d : D) (M : Bytes) (h : Holds d M) : checkSum d = Spec.sm3 M := by
  have hn := h.nx
  have hr := Nat.mod_lt M.length (show 0 < 64 by decide)
  have hT := h.x
  rw [hn] at hT
  have hTl := tailOf_length 64 M
  rw [Spec.sm3, show Spec.IV = iv.toV from rfl, ← absorb_eq]
  change _ = Spec.toBytes (absorb 64 block iv _).toV
  rw [checkSum]
  simp only [h.len]
  have hnx : d.nx % 64 = M.length % 64 := by rw [hn, Nat.mod_mod]
  rw [hnx]
  rw [padBuf d.x (tailOf 64 M) (M.length % 64) h.xl hr hT]
  have e : ∀ s : W8, stBE 4 s.toList = Spec.toBytes s.toV := fun _ => rfl
  rw [e]
  by_cases hc : 64 - M.length % 64 < 9
  · rw [if_pos hc]
    simp only
    rw [copyInto_eq_left _ _ (by simp [hTl]; omega), put2 _ _ _ (by simp) (by simp) (by simp), lenField, zeros_len _ (hx_length _ _),
      absorb_md_long _ _ _ _ (hx_length _ _) (by omega), h.s]
  · rw [if_neg hc]
    simp only
    rw [put2 _ _ _ (by simp [hTl]; omega) (by simp) (by simp), lenField, padBuf_len _ _ _ hTl (by omega) (hx_length _ _),
      absorb_md_short _ _ _ _ (hx_length _ _) (by omega), h.s]

theorem write_holds (d : D) (M p : Bytes) (h : Holds d M) : ∃ d', write d p = .ok d' ∧ Holds d' (M ++ p) := by
  have : { d with nx := d.nx % 64 } = d := by
    have := h.nx
    cases d
    simp only at this
    subst this
    simp
  rw [write, this]
  exact bufWrite_holds 64 (by decide) block iv d M p h

/-! ### saved states -/

theorem marshal_eq (d : D) (M : Bytes) (h : Holds d M) :
    marshal d = .ok (magic ++ (stBE 4 d.s.toList ++ ((tailOf 64 M ++ List.replicate (64 - M.length % 64) 0#8) ++ hx 8 (M.length % 2 ^ 64)))) := by
  have hr := Nat.mod_lt M.length (show 0 < 64 by decide)
  rw [marshal, if_neg (by rw [h.nx, h.xl]; omega), h.x, h.nx, h.len]
  simp [hx]

theorem ldBE_append (n : Nat) : ∀ (A B : Bytes), A.length = n * 4 → ldBE 32 4 n (A ++ B) = ldBE 32 4 n A := by
  induction n with
  | zero => intros; rfl
  | succ n ih =>
    intro A B h
    rw [ldBE, ldBE, List.take_append_of_le_length (by omega), List.drop_append_of_le_length (by omega), ih _ _ (by simp; omega)]

theorem unmarshal_marshal (d d0 : D) (M b : Bytes) (h : Holds d M) (hb : marshal d = .ok b) :
    ∃ d', unmarshal d0 b = .ok d' ∧ Holds d' M := by
  have hr := Nat.mod_lt M.length (show 0 < 64 by decide)
  rw [marshal_eq d M h] at hb
  have hb := (Res.ok.inj hb).symm
  have hX : (tailOf 64 M ++ List.replicate (64 - M.length % 64) 0#8).length = 64 := by simp [tailOf_length]; omega
  have hXt : (tailOf 64 M ++ List.replicate (64 - M.length % 64) 0#8).take (M.length % 64) = tailOf 64 M :=
    List.take_left' (tailOf_length ..)
  have hS : (stBE 4 d.s.toList).length = 32 := by simp [W8.toList]
  have hW := ldBE_stBE (w := 32) (sz := 4) rfl d.s.toList
  have hm : magic.length = 4 := rfl
  have hL := hx_length 8 (M.length % 2 ^ 64)
  have hlen : BitVec.ofNat 64 (leN (hx 8 (M.length % 2 ^ 64)).reverse) = BitVec.ofNat 64 M.length := by
    rw [hx, List.reverse_reverse, leN_leBytes]
    apply BitVec.eq_of_toNat_eq
    simp only [BitVec.toNat_ofNat]
    omega
  generalize tailOf 64 M ++ List.replicate (64 - M.length % 64) 0#8 = X at *
  generalize stBE 4 d.s.toList = S at *
  generalize hx 8 (M.length % 2 ^ 64) = L at *
  have hbl : b.length = 108 := by rw [hb]; simp [hm, hS, hX, hL]
  have hd : b.drop 4 = S ++ (X ++ L) := by rw [hb, ← hm, List.drop_left]
  have e1 : ldBE 32 4 8 (S ++ (X ++ L)) = d.s.toList := by rw [ldBE_append 8 _ _ hS]; exact hW
  have e2 : ((S ++ (X ++ L)).drop 32).take 64 = X := by rw [← hS, List.drop_left, ← hX, List.take_left]
  have e3 : ((S ++ (X ++ L)).drop 96).take 8 = L := by
    rw [← List.append_assoc, List.drop_left' (by simp [hS, hX]), List.take_of_length_le (by omega)]
  refine ⟨⟨d.s, X, (BitVec.ofNat 64 M.length % 64).toNat, BitVec.ofNat 64 M.length⟩, ?_, ?_⟩
  · rw [unmarshal, if_neg (by
      rintro (h1 | h1)
      · omega
      · exact h1 (by rw [hb, ← hm, List.take_left])), if_neg (by omega)]
    simp only [hd, e1, e2, e3, hlen]
    rfl
  · have e4 : (BitVec.ofNat 64 M.length % 64).toNat = M.length % 64 := by
      rw [BitVec.toNat_umod, BitVec.toNat_ofNat, show (64 : BitVec 64).toNat = 64 from rfl]; omega
    constructor
    · exact h.s
    · exact e4
    · exact hX
    · simp only [e4, hXt]
    · rfl

end Verif.Hash.Sm3
