import Verif.Rand.Drbg
import Verif.Kdf.KbLemmas
/-
Lemmas for C119 to C121.
-/
namespace Verif.Rand
open Verif.Pub Verif.Cipher Verif.Kdf

/-! ### addition on byte strings -/

theorem and_ff (t : Nat) : t &&& 0xff = t % 256 := Nat.and_two_pow_sub_one_eq_mod t 8

theorem ofNat_mod (t : Nat) : BitVec.ofNat 8 (t % 256) = BitVec.ofNat 8 t := by
  apply BitVec.eq_of_toNat_eq; simp

theorem addLoop_eq : ∀ (a b : Bytes) (t : Nat), a.length = b.length → addLoop a b t = leBytes a.length (leN a + leN b + t)
  | [], [], t, _ => rfl
  | r :: R, a :: A, t, h => by
    have ih := addLoop_eq R A ((t + (r.toNat + a.toNat)) >>> 8) (by simpa using h)
    rw [addLoop, List.length_cons, leBytes, and_ff, ih, leN, leN, Nat.shiftRight_eq_div_pow, ofNat_mod]
    have e1 : leN R + leN A + (t + (r.toNat + a.toNat)) / 2 ^ 8 = (r.toNat + 256 * leN R + (a.toNat + 256 * leN A) + t) / 256 := by
      omega
    rw [e1]
    congr 1
    apply BitVec.eq_of_toNat_eq
    simp only [BitVec.toNat_ofNat]
    omega
  | [], _ :: _, _, h => by simp at h
  | _ :: _, [], _, h => by simp at h

theorem add1Loop_eq : ∀ (a : Bytes) (t : Nat), add1Loop a t = leBytes a.length (leN a + t)
  | [], t => rfl
  | r :: R, t => by
    have ih := add1Loop_eq R ((t + r.toNat) >>> 8)
    rw [add1Loop, List.length_cons, leBytes, and_ff, ih, leN, Nat.shiftRight_eq_div_pow, ofNat_mod]
    have e1 : leN R + (t + r.toNat) / 2 ^ 8 = (r.toNat + 256 * leN R + t) / 256 := by omega
    rw [e1]
    congr 1
    apply BitVec.eq_of_toNat_eq
    simp only [BitVec.toNat_ofNat]
    omega

theorem setBytes_hx_mod (n v : Nat) : setBytes (hx n v) = v % 256 ^ n := Kb.beN_hx n v

theorem hx_mod (n v : Nat) : hx n (v % 256 ^ n) = hx n v := by
  apply setBytes_inj (by simp)
  rw [setBytes_hx_mod, setBytes_hx_mod, Nat.mod_mod]

theorem drbgAdd_eq (R A : Bytes) (n : Nat) (hR : n ≤ R.length) (hA : n ≤ A.length) :
    drbgAdd R A n = Spec.addMod n (R.take n) (setBytes (A.take n)) ++ R.drop n := by
  rw [drbgAdd, addLoop_eq _ _ _ (by simp; omega), Spec.addMod, hx_mod]
  simp only [List.length_reverse, List.length_take, Nat.min_eq_left hR, Nat.add_zero]
  rfl

theorem drbgAdd1_eq (R : Bytes) (n : Nat) (hR : n ≤ R.length) :
    drbgAdd1 R n = Spec.addMod n (R.take n) 1 ++ R.drop n := by
  rw [drbgAdd1, add1Loop_eq, Spec.addMod, hx_mod]
  simp only [List.length_reverse, List.length_take, Nat.min_eq_left hR]
  rfl

@[simp] theorem addMod_length (n : Nat) (a : Bytes) (k : Nat) : (Spec.addMod n a k).length = n := by simp [Spec.addMod]

theorem addMod_addMod (n : Nat) (a : Bytes) (k l : Nat) : Spec.addMod n (Spec.addMod n a k) l = Spec.addMod n a (k + l) := by
  rw [Spec.addMod, Spec.addMod, Spec.addMod, setBytes_hx_mod]
  congr 1
  rw [Nat.mod_mod, Nat.mod_add_mod, Nat.add_assoc]

theorem addMod_zero (a : Bytes) : Spec.addMod a.length a 0 = a := by
  rw [Spec.addMod, hx_mod, Nat.add_zero, hx_setBytes]

theorem take_add (n : Nat) (a : Bytes) (k : Nat) (r : Bytes) : (Spec.addMod n a k ++ r).take n = Spec.addMod n a k := by
  rw [List.take_left' (by simp)]

theorem drop_add (n : Nat) (a : Bytes) (k : Nat) (r : Bytes) : (Spec.addMod n a k ++ r).drop n = r := by
  rw [List.drop_left' (by simp)]

/-! ### loops that produce chunks -/

theorem chunks_succ' (T : Nat → Bytes) (n : Nat) : chunks T (n + 1) = T 0 ++ chunks (fun j => T (j + 1)) n := by
  induction n with
  | zero => simp [chunks]
  | succ n ih => rw [chunks_succ, ih, chunks_succ, List.append_assoc]

theorem outBytes_zero (T : Nat → Bytes) (sz : Nat) : outBytes T sz 0 = [] := by simp [outBytes]

theorem outBytes_step (T : Nat → Bytes) (sz L : Nat) (hs : 0 < sz) (h : ∀ i, (T i).length = sz) :
    outBytes T sz L = (T 0).take L ++ outBytes (fun j => T (j + 1)) sz (L - sz) := by
  have hn : L - sz ≤ L * sz := Nat.le_trans (Nat.sub_le _ _) (Nat.le_mul_of_pos_right _ hs)
  rw [← take_chunks T sz L (L + 1) hs h (by rw [Nat.succ_mul]; have := Nat.le_mul_of_pos_right L hs; omega), chunks_succ',
    ← take_chunks (fun j => T (j + 1)) sz (L - sz) L hs (fun i => h _) hn, List.take_append, h]

/-- A loop that copies one chunk after the other into `out`. -/
def fill (T : Nat → Bytes) : Nat → Nat → Nat → Nat → Bytes → Bytes
  | 0, _, _, _, out => out
  | fuel + 1, i, nl, ol, out =>
    if ol > 0 then
      let length := if ol < (T i).length then ol else (T i).length
      fill T fuel (i + 1) (nl + length) (ol - length) (copyAt out nl ((T i).take length))
    else out

theorem fill_eq (T : Nat → Bytes) (sz : Nat) (hs : 0 < sz) (h : ∀ i, (T i).length = sz) (fuel : Nat) :
    ∀ (i nl ol : Nat) (out : Bytes), nl + ol = out.length → ol ≤ fuel →
    fill T fuel i nl ol out = out.take nl ++ outBytes (fun j => T (i + j)) sz ol := by
  induction fuel with
  | zero =>
    intro i nl ol out h1 h2
    obtain rfl : ol = 0 := by omega
    rw [outBytes_zero, List.append_nil, fill, List.take_of_length_le (by omega)]
  | succ fuel ih =>
    intro i nl ol out h1 h2
    rw [fill]
    by_cases hz : ol > 0
    · rw [if_pos hz]
      simp only
      rw [h i]
      have hlen : ∀ k : Bytes, k.length ≤ ol → (copyAt out nl k).length = out.length ∧
          (copyAt out nl k).take (nl + k.length) = out.take nl ++ k := by
        intro k hk
        have hd : (out.drop nl).length = ol := by simp; omega
        have e : copyAt out nl k = out.take nl ++ k ++ (out.drop nl).drop k.length := by
          rw [copyAt, copyInto, hd, List.take_of_length_le hk, List.append_assoc]
        constructor
        · rw [e]; simp; omega
        · rw [e, List.take_left' (by simp; omega)]
      by_cases hlt : ol < sz
      · rw [if_pos hlt]
        have hk : ((T i).take ol).length = ol := by rw [List.length_take, h]; omega
        obtain ⟨e1, e2⟩ := hlen ((T i).take ol) (by omega)
        rw [ih _ _ _ _ (by omega) (by omega), Nat.sub_self, outBytes_zero, List.append_nil]
        rw [hk] at e2
        rw [e2, outBytes_step _ sz ol hs (fun j => h _), Nat.sub_eq_zero_of_le (by omega), outBytes_zero, List.append_nil, Nat.add_zero]
      · rw [if_neg hlt]
        have hk : ((T i).take sz).length = sz := by rw [List.length_take, h]; omega
        obtain ⟨e1, e2⟩ := hlen ((T i).take sz) (by omega)
        rw [ih _ _ _ _ (by omega) (by omega)]
        rw [hk] at e2
        rw [e2, outBytes_step (fun j => T (i + j)) sz ol hs (fun j => h _), List.append_assoc]
        congr 2
        · rw [Nat.add_zero, List.take_of_length_le (by rw [h]), List.take_of_length_le (by rw [h]; omega)]
        · congr 1; funext j; congr 1; omega
    · rw [if_neg hz]
      obtain rfl : ol = 0 := by omega
      rw [outBytes_zero, List.append_nil, List.take_of_length_le (by omega)]

/-- A loop that appends one chunk after the other until there is enough. -/
def grow {σ : Type} (next : σ → σ) (emit : σ → Bytes) (L : Nat) : Nat → σ → Bytes → σ × Bytes
  | 0, s, temp => (s, temp)
  | fuel + 1, s, temp => if temp.length < L then grow next emit L fuel (next s) (temp ++ emit (next s)) else (s, temp)

theorem lt_ceil (i L sz : Nat) (hs : 0 < sz) : i * sz < L ↔ i < (L + sz - 1) / sz := by
  rw [show (i < (L + sz - 1) / sz) ↔ (i + 1 ≤ (L + sz - 1) / sz) from Iff.rfl, Nat.le_div_iff_mul_le hs, Nat.succ_mul]; omega

theorem grow_eq {σ : Type} (next : σ → σ) (emit : σ → Bytes) (L sz : Nat) (hs : 0 < sz) (P : σ → Prop)
    (hP : ∀ s, P s → P (next s)) (h : ∀ s, P s → (emit s).length = sz) (fuel : Nat) :
    ∀ (i : Nat) (s : σ) (temp : Bytes), P s → temp.length = i * sz → (L + sz - 1) / sz ≤ fuel + i →
    grow next emit L fuel s temp = (next^[(L + sz - 1) / sz - i] s,
      temp ++ chunks (fun j => emit (next^[j + 1] s)) ((L + sz - 1) / sz - i)) := by
  induction fuel with
  | zero =>
    intro i s temp hs' h1 h2
    rw [Nat.sub_eq_zero_of_le (by omega), grow]; simp [chunks]
  | succ fuel ih =>
    intro i s temp hs' h1 h2
    rw [grow]
    by_cases hl : temp.length < L
    · rw [if_pos hl]
      rw [h1, lt_ceil _ _ _ hs] at hl
      rw [ih (i + 1) _ _ (hP s hs') (by rw [List.length_append, h _ (hP s hs'), h1, Nat.succ_mul]) (by omega)]
      obtain ⟨m, hm⟩ : ∃ m, (L + sz - 1) / sz - i = m + 1 := ⟨(L + sz - 1) / sz - i - 1, by omega⟩
      rw [hm, show (L + sz - 1) / sz - (i + 1) = m by omega, chunks_succ', List.append_assoc]
      rfl
    · rw [if_neg hl]
      rw [h1, lt_ceil _ _ _ hs] at hl
      rw [Nat.sub_eq_zero_of_le (by omega)]; simp [chunks]

theorem ceil_le (L sz : Nat) (hs : 0 < sz) : (L + sz - 1) / sz ≤ L := by
  rw [← Nat.lt_succ_iff, Nat.div_lt_iff_lt_mul hs, Nat.succ_mul]
  have := Nat.le_mul_of_pos_right L hs
  omega

/-! ### hash.go -/

theorem hashDFLoop_fill (H : HashFn) (ob inp : Bytes) (fuel : Nat) : ∀ (i nl ol : Nat) (out : Bytes),
    hashDFLoop H ob inp fuel (BitVec.ofNat 8 (i + 1)) nl ol out = fill (fun i => H.f (hx 1 (i + 1) ++ ob ++ inp)) fuel i nl ol out := by
  induction fuel with
  | zero => intros; rfl
  | succ fuel ih =>
    intro i nl ol out
    rw [hashDFLoop, fill]
    have e : BitVec.ofNat 8 (i + 1) :: ob ++ inp = hx 1 (i + 1) ++ ob ++ inp := rfl
    have e2 : BitVec.ofNat 8 (i + 1) + 1 = BitVec.ofNat 8 (i + 1 + 1) := by
      apply BitVec.eq_of_toNat_eq; simp
    simp only [e, e2, ih]

theorem hashDF_eq (H : HashFn) (inp out : Bytes) (h : out.length < 2 ^ 29) : hashDF H inp out = Spec.hashDf H inp out.length := by
  rw [hashDF, show (1#8 : Byte) = BitVec.ofNat 8 (0 + 1) from rfl, hashDFLoop_fill,
    fill_eq _ H.size H.pos (fun i => H.len _) _ _ _ _ _ (by omega) (by omega)]
  rw [Nat.mod_eq_of_lt (by omega), Nat.mul_comm]
  simp [Spec.hashDf]

theorem seedlen_le (H : HashFn) : Spec.seedlen H ≤ 111 := by unfold Spec.seedlen; split <;> omega

theorem seedlen_ge (H : HashFn) (h : H.size ≤ 111) : H.size ≤ Spec.seedlen H := by unfold Spec.seedlen; split <;> omega

theorem seedlen_ge8 (H : HashFn) : 8 ≤ Spec.seedlen H := by unfold Spec.seedlen; split <;> omega

theorem hashgenLoop_fill (H : HashFn) (n : Nat) (fuel : Nat) : ∀ (i nl ol : Nat) (out data V : Bytes), V.length = n →
    n ≤ data.length → data.take n = Spec.addMod n V i →
    hashgenLoop H n fuel data nl ol out = fill (fun i => H.f (Spec.addMod n V i)) fuel i nl ol out := by
  induction fuel with
  | zero => intros; rfl
  | succ fuel ih =>
    intro i nl ol out data V hV hd e
    rw [hashgenLoop, fill]
    simp only [e]
    rw [ih (i + 1) _ _ _ (drbgAdd1 data n) V hV]
    · rw [drbgAdd1_eq _ _ hd]; simp
    · rw [drbgAdd1_eq _ _ hd, take_add, e, addMod_addMod]

theorem padT_take (n : Nat) (dgst : Bytes) (h1 : dgst.length ≤ n) (h2 : n ≤ 111) :
    n ≤ (padT n dgst).length ∧ setBytes ((padT n dgst).take n) = setBytes dgst := by
  have e : padT n dgst = List.replicate (n - dgst.length) 0#8 ++ dgst ++ List.replicate (111 - n) 0#8 := by
    rw [padT, copyAt, copyInto, List.take_replicate, List.drop_replicate, List.drop_replicate, List.length_replicate,
      List.take_of_length_le (by omega), Nat.min_eq_left (by omega), List.append_assoc]
    congr 3; omega
  constructor
  · rw [e]; simp; omega
  · rw [e, List.take_left' (by simp; omega), setBytes_append]
    have : setBytes (List.replicate (n - dgst.length) 0#8) = 0 := by
      generalize n - dgst.length = k
      induction k with
      | zero => rfl
      | succ k ih => rw [List.replicate_succ', setBytes_append, ih]; rfl
    rw [this, Nat.zero_mul, Nat.zero_add]

/-! ### ctr.go -/
open Spec (Fam)

theorem add1_iter (n : Nat) (V : Bytes) (hV : V.length = n) (i : Nat) : (fun v => drbgAdd1 v n)^[i] V = Spec.addMod n V i := by
  induction i with
  | zero => rw [Function.iterate_zero, id, ← hV, addMod_zero]
  | succ i ih =>
    rw [Function.iterate_succ_apply', ih]
    show drbgAdd1 _ n = _
    rw [drbgAdd1_eq _ _ (by simp), List.take_of_length_le (by simp), List.drop_eq_nil_of_le (by simp), List.append_nil,
      addMod_addMod]

theorem updLoop_eq (F : Fam) (key V : Bytes) (hV : V.length = F.bs) (L n : Nat) : ∀ (m i : Nat), m + i = n →
    (∀ j, j < n → j * F.bs ≤ L) →
    updLoop F key m i (Spec.addMod F.bs V i) (fit L (chunks (fun j => F.E key (Spec.addMod F.bs V (j + 1))) i)) =
      fit L (chunks (fun j => F.E key (Spec.addMod F.bs V (j + 1))) n) := by
  intro m
  induction m with
  | zero => intro i h _; rw [updLoop]; congr 2; omega
  | succ m ih =>
    intro i h hL
    have hp := F.bs_pos
    rw [updLoop]
    have hc : (chunks (fun j => F.E key (Spec.addMod F.bs V (j + 1))) i).length = i * F.bs :=
      chunks_length _ _ (fun j => F.lenE _ _ (by simp)) i
    have e1 : drbgAdd1 (Spec.addMod F.bs V i) F.bs = Spec.addMod F.bs V (i + 1) := by
      rw [drbgAdd1_eq _ _ (by simp), List.take_of_length_le (by simp), List.drop_eq_nil_of_le (by simp), List.append_nil,
        addMod_addMod]
    rw [e1]
    have := copyAt_fit L (chunks (fun j => F.E key (Spec.addMod F.bs V (j + 1))) i) (F.E key (Spec.addMod F.bs V (i + 1)))
      (by rw [hc]; exact hL i (by omega))
    rw [hc] at this
    rw [this, ← chunks_succ (fun j => F.E key (Spec.addMod F.bs V (j + 1))) i]
    exact ih (i + 1) (by omega) hL

theorem xorb_len (a b : Bytes) : (xorb a b).length = min a.length b.length := by simp [xorb]

theorem update_eq (F : Fam) (d : CtrDRBG) (data : Bytes) (hk : d.key.length = F.klen) (hv : d.v.length = F.bs)
    (hd : data.length = F.seedlen) :
    d.update F data = { d with key := (Spec.ctrUpdate F data d.key d.v).1, v := (Spec.ctrUpdate F data d.key d.v).2 } := by
  have hp := F.bs_pos
  unfold CtrDRBG.update Spec.ctrUpdate
  simp only
  have h0 := updLoop_eq F d.key d.v hv (F.klen + F.bs) ((F.klen + F.bs + F.bs - 1) / F.bs) ((F.klen + F.bs + F.bs - 1) / F.bs) 0 (by omega)
    (fun j hj => by have := (lt_ceil j (F.klen + F.bs) F.bs (by omega)).mpr hj; omega)
  rw [show Spec.addMod F.bs d.v 0 = d.v by rw [← hv]; exact addMod_zero _,
    show chunks (fun j => F.E d.key (Spec.addMod F.bs d.v (j + 1))) 0 = [] from rfl, fit_nil] at h0
  have hT : ∀ i, (F.E d.key (Spec.addMod F.bs d.v (i + 1))).length = F.bs := fun j => F.lenE _ _ (by simp)
  rw [fit_full _ _ (by rw [chunks_length _ _ hT]; exact ceil_mul _ _ (by omega))] at h0
  rw [h0]
  have hO := outBytes_length _ F.bs F.seedlen (by omega) hT
  rw [show (chunks (fun j => F.E d.key (Spec.addMod F.bs d.v (j + 1))) ((F.klen + F.bs + F.bs - 1) / F.bs)).take (F.klen + F.bs) =
    outBytes (fun j => F.E d.key (Spec.addMod F.bs d.v (j + 1))) F.bs F.seedlen from rfl]
  generalize outBytes (fun j => F.E d.key (Spec.addMod F.bs d.v (j + 1))) F.bs F.seedlen = T at hO ⊢
  have hx : (xorb T data).length = F.klen + F.bs := by rw [xorb_len, hO, hd, Nat.min_self]; rfl
  have e1 : copyInto T (xorb T data) = xorb T data := by
    rw [copyInto, List.take_of_length_le (by rw [hx, hO]; exact Nat.le_refl _), List.drop_eq_nil_of_le (by rw [hx, hO]; exact Nat.le_refl _),
      List.append_nil]
  rw [e1]
  congr 1
  · rw [copyInto, List.drop_eq_nil_of_le (by omega), List.append_nil, hk]
  · have hl : ((xorb T data).drop F.klen).length = F.bs := by rw [List.length_drop, hx]; omega
    rw [copyInto, List.take_of_length_le (by omega), List.drop_eq_nil_of_le (as := d.v) (by omega), List.append_nil]

theorem ctrUpdate_len (F : Fam) (data K V : Bytes) (hd : data.length = F.seedlen) :
    (Spec.ctrUpdate F data K V).1.length = F.klen ∧ (Spec.ctrUpdate F data K V).2.length = F.bs := by
  have hp := F.bs_pos
  have hT : ∀ i, (F.E K (Spec.addMod F.bs V (i + 1))).length = F.bs := fun j => F.lenE _ _ (by simp)
  have hO := outBytes_length _ F.bs F.seedlen (by omega) hT
  unfold Spec.ctrUpdate
  simp only [List.length_take, List.length_drop, xorb_len, hO, hd]
  simp [Fam.seedlen]

theorem bccLoop_eq (F : Fam) (key data : Bytes) (n : Nat) : ∀ (i : Nat) (c : Bytes), c.length = F.bs → n + i ≤ data.length / F.bs →
    bccLoop F key data n i c = Spec.bcc F key n c (data.drop (i * F.bs)) := by
  have hp := F.bs_pos
  induction n with
  | zero => intros; rfl
  | succ n ih =>
    intro i c hc hl
    rw [bccLoop, Spec.bcc]
    have hle : (i + 1) * F.bs ≤ data.length := by
      have := (Nat.le_div_iff_mul_le (show 0 < F.bs by omega)).mp (show i + 1 ≤ data.length / F.bs by omega)
      exact this
    rw [Nat.succ_mul] at hle
    have e : copyInto c (xorb c (data.drop (i * F.bs))) = xorb c ((data.drop (i * F.bs)).take F.bs) := by
      have e0 : xorb c (data.drop (i * F.bs)) = xorb c ((data.drop (i * F.bs)).take F.bs) := by
        simp only [xorb]
        rw [List.zipWith_eq_zipWith_take_min]
        conv_rhs => rw [List.zipWith_eq_zipWith_take_min]
        congr 1
        · congr 1; simp; omega
        · rw [List.take_take]; congr 1; simp; omega
      have e2 : (xorb c ((data.drop (i * F.bs)).take F.bs)).length = F.bs := by rw [xorb_len]; simp; omega
      rw [e0, copyInto, List.take_of_length_le (by omega), List.drop_eq_nil_of_le (as := c) (by omega), List.append_nil]
    rw [e, ih (i + 1) _ (F.lenE _ _ (by rw [xorb_len]; simp; omega)) (by omega), List.drop_drop]
    congr 2; rw [Nat.succ_mul]

theorem bcc_length (F : Fam) (key : Bytes) (n : Nat) : ∀ c data : Bytes, c.length = F.bs → n * F.bs ≤ data.length →
    (Spec.bcc F key n c data).length = F.bs := by
  induction n with
  | zero => intro c data h _; exact h
  | succ n ih =>
    intro c data h hd
    rw [Nat.succ_mul] at hd
    rw [Spec.bcc]
    exact ih _ _ (F.lenE _ _ (by rw [xorb_len]; simp; omega)) (by simp; omega)

theorem dfLoop1_grow (F : Fam) (key s : Bytes) (fuel : Nat) : ∀ (i : Nat) (temp : Bytes),
    dfLoop1 F key s fuel i temp = (grow (fun i : Nat => i + 1)
      (fun i => bccM F key (copyInto (List.replicate F.bs 0#8) (hx 4 ((i - 1) % 2 ^ 32)) ++ s)) (F.klen + F.bs) fuel i temp).2 := by
  induction fuel with
  | zero => intros; rfl
  | succ fuel ih =>
    intro i temp
    rw [dfLoop1, grow]
    by_cases h : temp.length < F.klen + F.bs
    · rw [if_pos h, if_pos h]
      simp only
      rw [ih, Nat.add_sub_cancel]
    · rw [if_neg h, if_neg h]

theorem dfLoop2_grow (F : Fam) (k : Bytes) (n : Nat) (fuel : Nat) : ∀ (x temp : Bytes),
    dfLoop2 F k n fuel x temp = (grow (F.E k) id n fuel x temp).2 := by
  induction fuel with
  | zero => intros; rfl
  | succ fuel ih =>
    intro x temp
    rw [dfLoop2, grow]
    split
    · simp only; rw [ih]; rfl
    · rfl

theorem iter_len (F : Fam) (k x : Bytes) (hx : x.length = F.bs) (i : Nat) : ((F.E k)^[i] x).length = F.bs := by
  induction i with
  | zero => exact hx
  | succ i ih => rw [Function.iterate_succ_apply']; exact F.lenE _ _ ih

theorem chunks_congr (T U : Nat → Bytes) (n : Nat) (h : ∀ i, i < n → T i = U i) : chunks T n = chunks U n := by
  induction n with
  | zero => rfl
  | succ n ih => rw [chunks_succ, chunks_succ, ih (fun i hi => h i (by omega)), h n (by omega)]

theorem blockCipherDF_eq (F : Fam) (input : Bytes) (n : Nat) (hkl : F.klen + F.bs ≤ 2 ^ 32) :
    blockCipherDF F input n = Spec.dfTail F (dfS F input n) n := by
  have hp := F.bs_pos
  unfold blockCipherDF Spec.dfTail
  simp only
  generalize dfS F input n = s
  have hiv : ∀ i, copyInto (List.replicate F.bs 0#8) (hx 4 i) = hx 4 i ++ List.replicate (F.bs - 4) 0#8 := by
    intro i
    rw [copyInto, List.take_of_length_le (by simp; omega), List.drop_replicate]; simp
  have hT : ∀ i, (bccM F (Spec.dfKey F) (hx 4 i ++ List.replicate (F.bs - 4) 0#8 ++ s)) =
      Spec.bcc F (Spec.dfKey F) ((hx 4 i ++ List.replicate (F.bs - 4) 0#8 ++ s).length / F.bs) (List.replicate F.bs 0#8)
        (hx 4 i ++ List.replicate (F.bs - 4) 0#8 ++ s) := by
    intro i
    rw [bccM, bccLoop_eq _ _ _ _ _ _ (by simp) (by omega), Nat.zero_mul, List.drop_zero]
  have hTl : ∀ i, (bccM F (Spec.dfKey F) (hx 4 i ++ List.replicate (F.bs - 4) 0#8 ++ s)).length = F.bs := by
    intro i
    rw [hT]; exact bcc_length _ _ _ _ _ (by simp) (Nat.div_mul_le_self _ _)
  have e1 : dfLoop1 F ((List.range F.klen).map (BitVec.ofNat 8)) s (F.klen + F.bs) 0 [] =
      chunks (fun i => bccM F (Spec.dfKey F) (hx 4 i ++ List.replicate (F.bs - 4) 0#8 ++ s)) ((F.klen + F.bs + F.bs - 1) / F.bs) := by
    rw [dfLoop1_grow, grow_eq _ _ _ F.bs (by omega) (fun _ => True) (fun _ _ => trivial)
      (fun i _ => by rw [hiv]; exact hTl _) _ 0 _ _ trivial (by simp) (by have := ceil_le (F.klen + F.bs) F.bs (by omega); omega)]
    simp only [Nat.sub_zero, List.nil_append]
    apply chunks_congr
    intro j hj
    have : ∀ j, (fun i : Nat => i + 1)^[j] 0 = j := by
      intro j; induction j with
      | zero => rfl
      | succ j ih => rw [Function.iterate_succ_apply', ih]
    rw [this, Nat.add_sub_cancel, hiv]
    have hjl := (lt_ceil j (F.klen + F.bs) F.bs (by omega)).mpr hj
    have : j ≤ j * F.bs := Nat.le_mul_of_pos_right _ (by omega)
    rw [Nat.mod_eq_of_lt (show j < 2 ^ 32 by omega)]
    rfl
  rw [e1]
  have hcl := chunks_length (fun i => bccM F (Spec.dfKey F) (hx 4 i ++ List.replicate (F.bs - 4) 0#8 ++ s)) F.bs hTl
    ((F.klen + F.bs + F.bs - 1) / F.bs)
  have hce := ceil_mul (F.klen + F.bs) F.bs (by omega)
  have htake : outBytes (fun i => Spec.bcc F (Spec.dfKey F) ((hx 4 i ++ List.replicate (F.bs - 4) 0#8 ++ s).length / F.bs)
      (List.replicate F.bs 0#8) (hx 4 i ++ List.replicate (F.bs - 4) 0#8 ++ s)) F.bs (F.klen + F.bs) =
      (chunks (fun i => bccM F (Spec.dfKey F) (hx 4 i ++ List.replicate (F.bs - 4) 0#8 ++ s)) ((F.klen + F.bs + F.bs - 1) / F.bs)).take
        (F.klen + F.bs) := by
    rw [outBytes]; congr 1
    exact chunks_congr _ _ _ (fun i _ => (hT i).symm)
  rw [htake]
  generalize chunks (fun i => bccM F (Spec.dfKey F) (hx 4 i ++ List.replicate (F.bs - 4) 0#8 ++ s)) ((F.klen + F.bs + F.bs - 1) / F.bs) = tmp at *
  have ek : copyInto (List.replicate F.klen 0#8) tmp = (tmp.take (F.klen + F.bs)).take F.klen := by
    rw [copyInto, List.drop_replicate, List.length_replicate, show F.klen - tmp.length = 0 by omega, List.replicate_zero, List.append_nil,
      List.take_take]; congr 1; omega
  have ex : copyInto (List.replicate F.bs 0#8) (tmp.drop F.klen) = (tmp.take (F.klen + F.bs)).drop F.klen := by
    rw [copyInto, List.drop_replicate, List.length_replicate, List.length_drop, show F.bs - (tmp.length - F.klen) = 0 by omega,
      List.replicate_zero, List.append_nil, List.drop_take]; congr 1; omega
  rw [ek, ex]
  have hxl : ((tmp.take (F.klen + F.bs)).drop F.klen).length = F.bs := by simp; omega
  generalize (tmp.take (F.klen + F.bs)).take F.klen = k
  generalize (tmp.take (F.klen + F.bs)).drop F.klen = x at *
  rw [dfLoop2_grow, grow_eq _ _ _ F.bs (by omega) (fun x => x.length = F.bs) (fun s hs => F.lenE _ _ hs) (fun s hs => hs) _ 0 _ _ hxl
    (by simp) (by have := ceil_le n F.bs (by omega); omega)]
  simp [outBytes]

theorem dfTail_length (F : Fam) (s : Bytes) (n : Nat) : (Spec.dfTail F s n).length = n := by
  have hp := F.bs_pos
  unfold Spec.dfTail
  simp only
  have hTl : ∀ i, (Spec.bcc F (Spec.dfKey F) ((hx 4 i ++ List.replicate (F.bs - 4) 0#8 ++ s).length / F.bs) (List.replicate F.bs 0#8)
        (hx 4 i ++ List.replicate (F.bs - 4) 0#8 ++ s)).length = F.bs :=
    fun i => bcc_length _ _ _ _ _ (by simp) (Nat.div_mul_le_self _ _)
  have hO := outBytes_length _ F.bs (F.klen + F.bs) (by omega) hTl
  generalize outBytes (fun i => Spec.bcc F (Spec.dfKey F) ((hx 4 i ++ List.replicate (F.bs - 4) 0#8 ++ s).length / F.bs)
      (List.replicate F.bs 0#8) (hx 4 i ++ List.replicate (F.bs - 4) 0#8 ++ s)) F.bs (F.klen + F.bs) = tmp at *
  exact outBytes_length _ _ _ (by omega) (fun i => iter_len _ _ _ (by simp; omega) _)

theorem ctrLoop_grow (F : Fam) (key : Bytes) (L : Nat) (fuel : Nat) : ∀ (v temp : Bytes), v.length = F.bs →
    ctrLoop F key L fuel v temp = grow (fun v => drbgAdd1 v F.bs) (F.E key) L fuel v temp := by
  induction fuel with
  | zero => intros; rfl
  | succ fuel ih =>
    intro v temp hv
    rw [ctrLoop, grow]
    split
    · simp only
      rw [hv, ih _ _ (by rw [drbgAdd1_eq _ _ (by omega)]; simp; omega)]
    · rfl

theorem hmacLoop_grow (H : HashFn) (key : Bytes) (L : Nat) (fuel : Nat) : ∀ (v temp : Bytes),
    hmacLoop H key L fuel v temp = grow (hmac H key) id L fuel v temp := by
  induction fuel with
  | zero => intros; rfl
  | succ fuel ih =>
    intro v temp
    rw [hmacLoop, grow]
    split
    · simp only; rw [ih]; rfl
    · rfl

theorem hmacIter_eq (H : HashFn) (K V : Bytes) (i : Nat) : (hmac H K)^[i] V = Spec.hmacIter H K V i := by
  induction i with
  | zero => rfl
  | succ i ih => rw [Function.iterate_succ_apply', ih]; rfl

theorem copyInto_take (out t : Bytes) (h : out.length ≤ t.length) : copyInto out t = t.take out.length := by
  rw [copyInto, List.drop_eq_nil_of_le h, List.append_nil]

end Verif.Rand
