import Verif.Cipher.Common2
/-
Model of cipher/threeway (threeway.go, utils.go).
-/
namespace Verif.Cipher.Threeway

abbrev W := BitVec 32
abbrev St := W × W × W

/-- utils.go:17-37, on one word: the loop that shifts the bits of `a` out to the right and into `b`. -/
def revLoop : Nat → W → W → W
  | 0, b, _ => b
  | n + 1, b, a => revLoop n (if a &&& 1 = 1 then (b <<< 1) ||| 1 else b <<< 1) (a >>> 1)
/-- utils.go:9-42 `mu` -/
def mu (s : St) : St := (revLoop 32 0 s.2.2, revLoop 32 0 s.2.1, revLoop 32 0 s.1)
/-- utils.go:44-55 -/
def gamma (s : St) : St :=
  let (a0, a1, a2) := s
  (a0 ^^^ (a1 ||| ~~~a2), a1 ^^^ (a2 ||| ~~~a0), a2 ^^^ (a0 ||| ~~~a1))
/-- utils.go:57-81: the three components are the same expression in rotated arguments. -/
def thetaC (a0 a1 a2 : W) : W :=
  a0 ^^^
  (a0 >>> 16) ^^^ (a1 <<< 16) ^^^ (a1 >>> 16) ^^^ (a2 <<< 16) ^^^
  (a1 >>> 24) ^^^ (a2 <<< 8) ^^^ (a2 >>> 8) ^^^ (a0 <<< 24) ^^^
  (a2 >>> 16) ^^^ (a0 <<< 16) ^^^ (a2 >>> 24) ^^^ (a0 <<< 8)
def theta (s : St) : St := (thetaC s.1 s.2.1 s.2.2, thetaC s.2.1 s.2.2 s.1, thetaC s.2.2 s.1 s.2.1)
/-- utils.go:83-86 -/
def pi1 (s : St) : St := ((s.1 >>> 10) ^^^ (s.1 <<< 22), s.2.1, (s.2.2 <<< 1) ^^^ (s.2.2 >>> 31))
/-- utils.go:88-91 -/
def pi2 (s : St) : St := ((s.1 <<< 1) ^^^ (s.1 >>> 31), s.2.1, (s.2.2 >>> 10) ^^^ (s.2.2 <<< 22))
/-- utils.go:93-100 -/
def rho (s : St) : St := pi2 (gamma (pi1 (theta s)))
/-- utils.go:102-114 -/
def rndcon : Nat → W → List W
  | 0, _ => []
  | n + 1, strt => strt :: rndcon n (if (strt <<< 1) &&& 0x10000 > 0 then (strt <<< 1) ^^^ 0x11011 else strt <<< 1)
/-- The tables of utils.go:6-7, threeway.go:91, 135. -/
def rcE : List W := rndcon 12 0x0b0b
def rcD : List W := rndcon 12 0xb1b1
/-- threeway.go:96-98 -/
def addK (rc : List W) (k : St) (i : Nat) (s : St) : St :=
  (s.1 ^^^ (k.1 ^^^ (rc.getD i 0 <<< 16)), s.2.1 ^^^ k.2.1, s.2.2 ^^^ (k.2.2 ^^^ rc.getD i 0))

/-- threeway.go:82-115 -/
def enc (k s : St) : St := theta (addK rcE k 11 ((List.range 11).foldl (fun s i => rho (addK rcE k i s)) s))
/-- threeway.go:117-162 -/
def dec (k s : St) : St :=
  let k := mu (theta k)
  mu (theta (addK rcD k 11 ((List.range 11).foldl (fun s i => rho (addK rcD k i s)) (mu s))))

def ld3 (b : Bytes) : St := let l := ldBE 32 4 3 b; (l.getD 0 0, l.getD 1 0, l.getD 2 0)
def st3 (s : St) : Bytes := stBE 4 [s.1, s.2.1, s.2.2]
def encrypt (key : Bytes) (b : Bytes) : Bytes := st3 (enc (ld3 key) (ld3 b))
def decrypt (key : Bytes) (b : Bytes) : Bytes := st3 (dec (ld3 key) (ld3 b))

/-- threeway.go:25-80 -/
def newCipher (key : Bytes) : Res Obj :=
  if key.length = 12 then .ok ⟨12, guarded 12 (whole 12 (encrypt key)), guarded 12 (whole 12 (decrypt key))⟩ else .err

/-! Bit reversal -/

theorem revLoop_bit (n : Nat) (b a : W) (i : Nat) (hi : i < 32) :
    (revLoop n b a).getLsbD i = if i < n then a.getLsbD (n - 1 - i) else b.getLsbD (i - n) := by
  induction n generalizing b a with
  | zero => simp [revLoop]
  | succ n ih =>
    unfold revLoop
    rw [ih]
    have hb : (if a &&& 1 = 1 then (b <<< 1) ||| 1 else b <<< 1).getLsbD (i - n) = if i = n then a.getLsbD 0 else if i < n then b.getLsbD (i - n) && false || (if a &&& 1 = 1 then (b <<< 1) ||| 1 else b <<< 1).getLsbD 0 else b.getLsbD (i - n - 1) := by
      have h1 : (a &&& 1 = 1) ↔ a.getLsbD 0 = true := by
        constructor
        · intro h
          have := congrArg (fun x : W => x.getLsbD 0) h
          simpa using this
        · intro h
          apply BitVec.eq_of_getLsbD_eq
          intro j hj
          by_cases h0 : j = 0
          · subst h0; simp [h]
          · have : (1 : W).getLsbD j = false := by
              show (1#32).getLsbD j = false
              rw [BitVec.getLsbD_one]; simp [h0]
            rw [BitVec.getLsbD_and, this, Bool.and_false]
      by_cases hin : i = n
      · subst hin
        rw [Nat.sub_self, if_pos rfl]
        by_cases h : a.getLsbD 0 = true
        · rw [if_pos (h1.2 h), h]; simp
        · rw [if_neg (fun c => h (h1.1 c))]; simp at h ⊢; exact h
      · rw [if_neg hin]
        by_cases hlt : i < n
        · rw [if_pos hlt, show i - n = 0 by omega]; simp
        · rw [if_neg hlt]
          have h2 : (b <<< 1).getLsbD (i - n) = b.getLsbD (i - n - 1) := by
            rw [BitVec.getLsbD_shiftLeft]
            simp [show i - n < 32 by omega, show ¬ (i - n) < 1 by omega]
          have h3 : (1 : W).getLsbD (i - n) = false := by
            show (1#32).getLsbD (i - n) = false
            rw [BitVec.getLsbD_one]; simp [show ¬ (i - n) = 0 by omega]
          by_cases h : a &&& 1 = 1
          · rw [if_pos h, BitVec.getLsbD_or, h2, h3, Bool.or_false]
          · rw [if_neg h, h2]
    by_cases hlt : i < n
    · rw [if_pos hlt, if_pos (by omega), BitVec.getLsbD_ushiftRight]
      congr 1; omega
    · rw [if_neg hlt, hb]
      by_cases hin : i = n
      · subst hin
        rw [if_pos rfl, if_pos (by omega)]
        congr 1; omega
      · rw [if_neg hin, if_neg hlt, if_neg (by omega)]
        congr 1

/-- The bits of a word in reverse. -/
def rev (a : W) : W := revLoop 32 0 a
theorem rev_bit (a : W) (i : Nat) (hi : i < 32) : (rev a).getLsbD i = a.getLsbD (31 - i) := by
  unfold rev
  rw [revLoop_bit 32 0 a i hi, if_pos hi]
theorem rev_rev (a : W) : rev (rev a) = a := by
  apply BitVec.eq_of_getLsbD_eq; intro i hi
  rw [rev_bit _ i hi, rev_bit _ _ (by omega)]
  congr 1; omega
theorem rev_xor (a b : W) : rev (a ^^^ b) = rev a ^^^ rev b := by
  apply BitVec.eq_of_getLsbD_eq; intro i hi
  rw [rev_bit _ i hi, BitVec.getLsbD_xor, BitVec.getLsbD_xor, rev_bit _ i hi, rev_bit _ i hi]
theorem rev_or (a b : W) : rev (a ||| b) = rev a ||| rev b := by
  apply BitVec.eq_of_getLsbD_eq; intro i hi
  rw [rev_bit _ i hi, BitVec.getLsbD_or, BitVec.getLsbD_or, rev_bit _ i hi, rev_bit _ i hi]
theorem rev_not (a : W) : rev (~~~a) = ~~~(rev a) := by
  apply BitVec.eq_of_getLsbD_eq; intro i hi
  rw [rev_bit _ i hi, BitVec.getLsbD_not, BitVec.getLsbD_not, rev_bit _ i hi]
  simp [hi]; omega
theorem rev_shl (a : W) (n : Nat) : rev (a <<< n) = rev a >>> n := by
  apply BitVec.eq_of_getLsbD_eq; intro i hi
  rw [rev_bit _ i hi, BitVec.getLsbD_shiftLeft, BitVec.getLsbD_ushiftRight]
  by_cases h : n + i < 32
  · rw [rev_bit _ _ h]
    simp only [show 31 - i < 32 by omega, show ¬ 31 - i < n by omega]
    simp
    congr 1; omega
  · have : (rev a).getLsbD (n + i) = false := BitVec.getLsbD_of_ge _ _ (by omega)
    rw [this]
    simp only [show 31 - i < n by omega]
    simp
theorem rev_shr (a : W) (n : Nat) : rev (a >>> n) = rev a <<< n := by
  rw [← rev_rev (rev a <<< n), rev_shl, rev_rev]

theorem mu_eq (s : St) : mu s = (rev s.2.2, rev s.2.1, rev s.1) := rfl
theorem mu_mu (s : St) : mu (mu s) = s := by simp only [mu_eq, rev_rev]

def sxor (a b : St) : St := (a.1 ^^^ b.1, a.2.1 ^^^ b.2.1, a.2.2 ^^^ b.2.2)
theorem mu_sxor (a b : St) : mu (sxor a b) = sxor (mu a) (mu b) := by simp only [mu_eq, sxor, rev_xor]
theorem xor4 (a b x y : W) : (a ^^^ b) ^^^ (x ^^^ y) = (a ^^^ x) ^^^ (b ^^^ y) := by ac_rfl
theorem thetaC_xor (a0 a1 a2 b0 b1 b2 : W) : thetaC (a0 ^^^ b0) (a1 ^^^ b1) (a2 ^^^ b2) = thetaC a0 a1 a2 ^^^ thetaC b0 b1 b2 := by
  unfold thetaC
  rw [shr_xor a0 b0 (w := 32) 16, shl_xor a1 b1 (w := 32) 16, shr_xor a1 b1 (w := 32) 16, shl_xor a2 b2 (w := 32) 16, shr_xor a1 b1 (w := 32) 24, shl_xor a2 b2 (w := 32) 8, shr_xor a2 b2 (w := 32) 8, shl_xor a0 b0 (w := 32) 24, shr_xor a2 b2 (w := 32) 16, shl_xor a0 b0 (w := 32) 16, shr_xor a2 b2 (w := 32) 24, shl_xor a0 b0 (w := 32) 8]
  rw [xor4 _ _ (a0 >>> 16) (b0 >>> 16), xor4 _ _ (a1 <<< 16) (b1 <<< 16), xor4 _ _ (a1 >>> 16) (b1 >>> 16), xor4 _ _ (a2 <<< 16) (b2 <<< 16), xor4 _ _ (a1 >>> 24) (b1 >>> 24), xor4 _ _ (a2 <<< 8) (b2 <<< 8), xor4 _ _ (a2 >>> 8) (b2 >>> 8), xor4 _ _ (a0 <<< 24) (b0 <<< 24), xor4 _ _ (a2 >>> 16) (b2 >>> 16), xor4 _ _ (a0 <<< 16) (b0 <<< 16), xor4 _ _ (a2 >>> 24) (b2 >>> 24), xor4 _ _ (a0 <<< 8) (b0 <<< 8)]
theorem theta_sxor (a b : St) : theta (sxor a b) = sxor (theta a) (theta b) := by simp only [theta, sxor, thetaC_xor]
theorem sxor_self (a b : St) : sxor (sxor a b) b = a := by simp only [sxor, xor_self_right]

/-! The linear step: 96 words with one bit -/

def pack (s : St) : BitVec 96 := s.1 ++ s.2.1 ++ s.2.2
def unpack (x : BitVec 96) : St := ((x >>> 64).setWidth 32, (x >>> 32).setWidth 32, x.setWidth 32)
theorem unpack_xor (x y : BitVec 96) : unpack (x ^^^ y) = sxor (unpack x) (unpack y) := by
  simp only [unpack, sxor, shr_xor, setWidth_xor']
theorem pack_sxor (a b : St) : pack (sxor a b) = pack a ^^^ pack b := by
  simp only [pack, sxor]
  apply BitVec.eq_of_getLsbD_eq; intro i hi
  simp only [BitVec.getLsbD_append, BitVec.getLsbD_xor]
  repeat' split
  all_goals rfl
theorem unpack_pack (s : St) : unpack (pack s) = s := by
  obtain ⟨a, b, c⟩ := s
  simp only [unpack, pack]
  refine Prod.ext ?_ (Prod.ext ?_ ?_)
  all_goals
    apply BitVec.eq_of_getLsbD_eq; intro i hi
    simp only [BitVec.getLsbD_setWidth, BitVec.getLsbD_ushiftRight, BitVec.getLsbD_append, hi, decide_true, Bool.true_and]
    repeat' split
    all_goals first | omega | (congr 1 <;> omega) | (simp at *; done) | (simp at *; congr 1 <;> omega)

set_option maxRecDepth 10000 in
theorem mutheta_basis : ∀ i, i < 96 → pack (mu (theta (mu (theta (unpack (BitVec.twoPow 96 i)))))) = BitVec.twoPow 96 i := by decide +kernel
theorem mutheta (s : St) : mu (theta (mu (theta s))) = s := by
  have h := additive_ext (fun x : BitVec 96 => pack (mu (theta (mu (theta (unpack x)))))) (fun x => x)
    (fun x y => by simp only [unpack_xor, theta_sxor, mu_sxor, pack_sxor]) (fun _ _ => rfl) mutheta_basis (pack s)
  have h2 := congrArg unpack h
  simpa only [unpack_pack] using h2

/-! The other steps -/

theorem rot_inv (x : W) : ((x >>> 10) ^^^ (x <<< 22)) = rotl x 22 := by
  rw [BitVec.xor_comm]; exact rotl_shift_xor (w := 32) x 10 22 (by decide) (by decide) rfl
theorem rot1_inv (x : W) : ((x <<< 1) ^^^ (x >>> 31)) = rotl x 1 := rotl_shift_xor (w := 32) x 31 1 (by decide) (by decide) rfl
theorem rev22 (x : W) : rev (rotl (rev x) 22) = rotl x 10 := by
  rw [← rot_inv, rev_xor, rev_shr, rev_shl, rev_rev]
  exact rotl_shift_xor (w := 32) x 22 10 (by decide) (by decide) rfl
theorem rev1 (x : W) : rev (rotl (rev x) 1) = rotl x 31 := by
  rw [← rot1_inv, rev_xor, rev_shr, rev_shl, rev_rev, BitVec.xor_comm]
  exact rotl_shift_xor (w := 32) x 1 31 (by decide) (by decide) rfl
theorem mu_pi1_mu_pi2 (s : St) : mu (pi1 (mu (pi2 s))) = s := by
  simp only [mu_eq, pi1, pi2, rot_inv, rot1_inv, rev22, rev1, rev_rev]
  rw [rotl_rotl (w := 32) _ 1 31 (by decide), rotl_rotl (w := 32) _ 22 10 (by decide)]
theorem mu_pi2_mu_pi1 (s : St) : mu (pi2 (mu (pi1 s))) = s := by
  simp only [mu_eq, pi1, pi2, rot_inv, rot1_inv, rev22, rev1, rev_rev]
  rw [rotl_rotl (w := 32) _ 22 10 (by decide), rotl_rotl (w := 32) _ 1 31 (by decide)]

theorem gamma_bit : ∀ a b c : Bool,
    let a' := a ^^ (b || !c)
    let b' := b ^^ (c || !a)
    let c' := c ^^ (a || !b)
    (a' ^^ (c' || !b')) = a ∧ (b' ^^ (a' || !c')) = b ∧ (c' ^^ (b' || !a')) = c := by decide
theorem mu_gamma_mu_gamma (s : St) : mu (gamma (mu (gamma s))) = s := by
  obtain ⟨a, b, c⟩ := s
  simp only [mu_eq, gamma, rev_rev, rev_xor, rev_or, rev_not]
  have h := fun i => gamma_bit (a.getLsbD i) (b.getLsbD i) (c.getLsbD i)
  refine Prod.ext ?_ (Prod.ext ?_ ?_)
  · apply BitVec.eq_of_getLsbD_eq; intro i hi
    simpa [hi] using (h i).1
  · apply BitVec.eq_of_getLsbD_eq; intro i hi
    simpa [hi] using (h i).2.1
  · apply BitVec.eq_of_getLsbD_eq; intro i hi
    simpa [hi] using (h i).2.2

/-! The rounds -/

/-- The round constant, as it is added to the state. -/
def rcSt (rc : List W) (i : Nat) : St := (rc.getD i 0 <<< 16, 0, rc.getD i 0)
theorem addK_eq (rc : List W) (k : St) (i : Nat) (s : St) : addK rc k i s = sxor s (sxor k (rcSt rc i)) := by
  simp only [addK, sxor, rcSt]
  rw [show k.2.1 ^^^ (0 : W) = k.2.1 from BitVec.xor_zero]
/-- The constants of decryption are those of encryption, through `theta` and `mu`, in reverse. -/
theorem rc_rel : ∀ i, i < 12 → rcSt rcD (11 - i) = mu (theta (rcSt rcE i)) := by decide +kernel

theorem undo (k : St) (i : Nat) (hi : i < 12) (s : St) : mu (theta (addK rcD (mu (theta k)) (11 - i) (mu (theta (addK rcE k i s))))) = s := by
  have e : sxor (mu (theta k)) (mu (theta (rcSt rcE i))) = mu (theta (sxor k (rcSt rcE i))) := by rw [theta_sxor, mu_sxor]
  rw [addK_eq, addK_eq, rc_rel i hi, e, theta_sxor s, mu_sxor, sxor_self, mutheta]

def G (s : St) : St := pi2 (gamma (pi1 s))
theorem G_G (s : St) : mu (G (mu (G s))) = s := by
  unfold G
  have h1 : ∀ x, pi1 (mu (pi2 x)) = mu x := fun x => by rw [← mu_mu (pi1 _), mu_pi1_mu_pi2]
  have h2 : ∀ x, gamma (mu (gamma x)) = mu x := fun x => by rw [← mu_mu (gamma _), mu_gamma_mu_gamma]
  rw [h1, h2, mu_pi2_mu_pi1]

theorem fold_conj (P : Nat → St → St) (l : List Nat) (s : St) :
    l.foldl (fun s i => mu (P (11 - i) (mu s))) s = mu ((l.map (11 - ·)).foldl (fun s j => P j s) (mu s)) := by
  induction l generalizing s with
  | nil => exact (mu_mu s).symm
  | cons i l ih =>
    rw [List.foldl_cons, ih, List.map_cons, List.foldl_cons, mu_mu]

theorem dec_enc (k s : St) : dec k (enc k s) = s := by
  have h := sandwich (fun i s => if i < 12 then theta (addK rcE k i s) else s) (fun i s => if i < 12 then mu (theta (addK rcD (mu (theta k)) (11 - i) (mu s))) else s) G (fun s => mu (G (mu s))) G_G
    (fun i s => by
      by_cases hi : i < 12
      · simp only [hi, if_true]; exact undo k i hi s
      · simp only [hi, if_false]) 11 s
  have e1 : (fun s i => G (if i < 12 then theta (addK rcE k i s) else s)) = fun s i => if i < 12 then rho (addK rcE k i s) else G s := by
    funext s i; split <;> rfl
  have fc : ∀ (f g : St → Nat → St) (l : List Nat) (s : St), (∀ i ∈ l, ∀ s, f s i = g s i) → l.foldl f s = l.foldl g s := by
    intro f g l
    induction l with
    | nil => intro s _; rfl
    | cons i l ih =>
      intro s hl
      rw [List.foldl_cons, List.foldl_cons, hl i (by simp) s, ih _ (fun j hj => hl j (by simp [hj]))]
  have e2 : (List.range 11).foldl (fun s i => G (if i < 12 then theta (addK rcE k i s) else s)) s = (List.range 11).foldl (fun s i => rho (addK rcE k i s)) s := by
    apply fc
    intro i hi s
    rw [if_pos (by have := List.mem_range.1 hi; omega)]
    rfl
  simp only [e2, show (11 : Nat) < 12 from by decide, if_true, show (0 : Nat) < 12 from by decide] at h
  have e3 : ∀ t, ((List.range 11).reverse.map (· + 1)).foldl (fun s i => mu (G (mu (if i < 12 then mu (theta (addK rcD (mu (theta k)) (11 - i) (mu s))) else s)))) t =
      mu ((List.range 11).foldl (fun s i => rho (addK rcD (mu (theta k)) i s)) (mu t)) := by
    intro t
    have := fold_conj (fun j s => rho (addK rcD (mu (theta k)) j s)) ((List.range 11).reverse.map (· + 1)) t
    rw [show ((List.range 11).reverse.map (· + 1)).map (11 - ·) = List.range 11 from by decide] at this
    rw [← this]
    apply fc
    intro i hi s
    have : i < 12 := by
      obtain ⟨j, hj, rfl⟩ := List.mem_map.1 hi
      have := List.mem_range.1 (List.mem_reverse.1 hj)
      omega
    rw [if_pos this, mu_mu]
    rfl
  rw [e3, mu_mu] at h
  exact h

theorem implements : Implements newCipher (fun n => n = 12) 12 :=
  implements_fn (ok := fun n => n = 12) fun key _ =>
    blockFn_of 12 ld3 st3 (enc (ld3 key)) (dec (ld3 key)) (fun s => by simp [st3])
      (fun s => by
        have := ldBE_stBE (w := 32) (sz := 4) rfl [s.1, s.2.1, s.2.2]
        unfold ld3 st3
        rw [show (3 : Nat) = [s.1, s.2.1, s.2.2].length from rfl, this]
        rfl)
      (fun b h => by
        have := stBE_ldBE (w := 32) (sz := 4) rfl 3 b (by omega)
        have l := ldBE_length 32 4 3 b
        unfold ld3 st3
        match hl : ldBE 32 4 3 b, l with
        | [x, y, z], _ => rw [hl] at this; exact this)
      (dec_enc (ld3 key))

end Verif.Cipher.Threeway
