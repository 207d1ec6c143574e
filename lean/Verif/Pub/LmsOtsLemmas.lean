import Verif.Pub.Lms
import Mathlib.Tactic.Ring
import Mathlib.Data.List.GetD
import Mathlib.Tactic.Linarith
/-
Lemmas about the Winternitz coefficients, the chains and the one-time signatures of pubkey/lms.
-/
namespace Verif.Pub.Lms
open Verif.Cipher Verif.Kdf

theorem Win.mask_eq (w : Win) : w.mask = 2 ^ w.val - 1 := by cases w <;> rfl
theorem Win.per (w : Win) : 8 / w.val * w.val = 8 := by cases w <;> rfl
theorem Win.per_pos (w : Win) : 0 < 8 / w.val := by cases w <;> decide
theorem Win.val_pos (w : Win) : 0 < w.val := by cases w <;> decide

/-- The coefficients of one byte. -/
def byteCoefs (b : Byte) (w : Win) : List Nat :=
  (List.range (8 / w.val)).map fun i => (b.toNat >>> (8 - w.val - i * w.val)) &&& w.mask

theorem coefs_cons (b : Byte) (x : Bytes) (w : Win) : coefs (b :: x) w = byteCoefs b w ++ coefs x w := by
  have hp := w.per_pos
  simp only [coefs, byteCoefs, List.length_cons]
  generalize 8 / w.val = per at *
  rw [show per * (x.length + 1) = per + per * x.length by ring, List.range_add, List.map_append]
  congr 1
  · apply List.map_congr_left
    intro i hi
    rw [List.mem_range] at hi
    rw [Nat.div_eq_of_lt hi, Nat.mod_eq_of_lt hi]
    rfl
  · rw [List.map_map]
    apply List.map_congr_left
    intro i _
    simp only [Function.comp_apply]
    rw [Nat.add_mod_left, Nat.add_div_left _ hp]
    rfl

@[simp] theorem coefs_nil (w : Win) : coefs [] w = [] := rfl

@[simp] theorem coefs_length (x : Bytes) (w : Win) : (coefs x w).length = 8 / w.val * x.length := by simp [coefs]

theorem coefs_le (x : Bytes) (w : Win) : ∀ c ∈ coefs x w, c ≤ 2 ^ w.val - 1 := by
  intro c hc
  simp only [coefs, List.mem_map] at hc
  obtain ⟨i, -, rfl⟩ := hc
  rw [← w.mask_eq]
  exact Nat.and_le_right

/-- The number with the given digits, most significant first. -/
def digits (B : Nat) (l : List Nat) : Nat := l.foldl (fun a c => a * B + c) 0

theorem foldl_digits (B : Nat) (l : List Nat) (a : Nat) : l.foldl (fun a c => a * B + c) a = a * B ^ l.length + digits B l := by
  induction l generalizing a with
  | nil => simp [digits]
  | cons c l ih =>
    rw [digits, List.foldl_cons, ih, List.foldl_cons, ih (0 * B + c), List.length_cons, pow_succ]
    ring

theorem digits_append (B : Nat) (l m : List Nat) : digits B (l ++ m) = digits B l * B ^ m.length + digits B m := by
  rw [digits, List.foldl_append, foldl_digits]; rfl

theorem digits_cons (B c : Nat) (l : List Nat) : digits B (c :: l) = c * B ^ l.length + digits B l := by
  rw [digits, List.foldl_cons, foldl_digits]; simp

theorem byteCoefs_digits (b : Byte) (w : Win) : digits (2 ^ w.val) (byteCoefs b w) = b.toNat := by
  have h : ∀ n : Fin 256, digits (2 ^ w.val) (byteCoefs (BitVec.ofFin n) w) = n.val := by
    cases w <;> decide +kernel
  exact h b.toFin

theorem setBytes_cons (b : Byte) (x : Bytes) : setBytes (b :: x) = b.toNat * 256 ^ x.length + setBytes x := by
  rw [show b :: x = [b] ++ x from rfl, setBytes_append]
  congr 2

/-- The coefficients are the digits of the bytes read as a number. -/
theorem coefs_digits (x : Bytes) (w : Win) : digits (2 ^ w.val) (coefs x w) = setBytes x := by
  induction x with
  | nil => rfl
  | cons b x ih =>
    rw [coefs_cons, digits_append, ih, byteCoefs_digits, setBytes_cons, coefs_length, ← pow_mul, ← mul_assoc, mul_comm w.val, w.per, pow_mul]; rfl

theorem coefs_inj {x y : Bytes} {w : Win} (hl : x.length = y.length) (h : coefs x w = coefs y w) : x = y := by
  have := coefs_digits x w
  rw [h, coefs_digits] at this
  rw [← hx_setBytes x, ← hx_setBytes y, this, hl]

/-- The sum of the complements, which the checksum is. -/
theorem cksm_eq (c : List Nat) (w : Win) (LS : Nat) (hb : c.length * (2 ^ w.val - 1) * 2 ^ LS < 2 ^ 16) :
    cksm c w LS = (c.map fun a => 2 ^ w.val - 1 - a).sum * 2 ^ LS := by
  have hpos : 0 < 2 ^ LS := Nat.two_pow_pos LS
  have hsum : ∀ c : List Nat, (c.map fun a => 2 ^ w.val - 1 - a).sum ≤ c.length * (2 ^ w.val - 1) := by
    intro c
    induction c with
    | nil => simp
    | cons a c ih =>
      simp only [List.map_cons, List.sum_cons, List.length_cons, Nat.succ_mul]
      omega
  have hfold : ∀ (c : List Nat) (s : Nat), c.foldl (fun sum a => (sum + (2 ^ w.val - 1 - a)) % 2 ^ 16) s % 2 ^ 16 =
      (s + (c.map fun a => 2 ^ w.val - 1 - a).sum) % 2 ^ 16 := by
    intro c
    induction c with
    | nil => intro s; simp
    | cons a c ih => intro s; rw [List.foldl_cons, ih, Nat.mod_add_mod, List.map_cons, List.sum_cons, Nat.add_assoc]
  have hS := hsum c
  have hlt : (c.map fun a => 2 ^ w.val - 1 - a).sum * 2 ^ LS < 2 ^ 16 := lt_of_le_of_lt (Nat.mul_le_mul_right _ hS) hb
  rw [cksm]
  have := hfold c 0
  rw [Nat.zero_add] at this
  rw [← Nat.mod_mul_mod, this, Nat.mod_mul_mod, Nat.mod_eq_of_lt hlt]

/-- Parameters as RFC 8554 requires them. -/
structure Spec.IsOts (p : OtsParam) : Prop where
  size : p.N = p.H.size
  typ : p.typ < 2 ^ 32
  /-- The checksum fits in sixteen bits after the shift. -/
  fits : 8 / p.W.val * p.N * (2 ^ p.W.val - 1) * 2 ^ p.LS < 2 ^ 16
  /-- All digits of the message are used. -/
  enough : 8 / p.W.val * p.N ≤ p.P
  /-- There are so many digits. -/
  le : p.P ≤ 8 / p.W.val * (p.N + 2)
  /-- The digits of the checksum that are cut off are those that the shift makes zero. -/
  shift : (8 / p.W.val * (p.N + 2) - p.P) * p.W.val ≤ p.LS
  len : p.sigLength = 4 + p.N + p.P * p.N

theorem expand_ok {p : OtsParam} (hp : Spec.IsOts p) (m : Bytes) (hm : m.length = p.N) :
    expand m p = .ok ((coefs m p.W ++ coefs (hx 2 (cksm (coefs m p.W) p.W p.LS)) p.W).take p.P) := by
  have := hp.le
  rw [expand]
  rw [if_neg]
  rw [List.length_append, coefs_length, coefs_length, hx_length, hm, ← Nat.mul_add]
  omega

/-- The expansion has `P` elements, each at most `2^w − 1`. -/
theorem expand_spec {p : OtsParam} (hp : Spec.IsOts p) (m : Bytes) (hm : m.length = p.N) :
    ∃ e, expand m p = .ok e ∧ e.length = p.P ∧ (∀ c ∈ e, c ≤ 2 ^ p.W.val - 1) ∧ e.take (8 / p.W.val * p.N) = coefs m p.W := by
  refine ⟨_, expand_ok hp m hm, ?_, ?_, ?_⟩
  · have := hp.le
    rw [List.length_take, List.length_append, coefs_length, coefs_length, hx_length, hm, ← Nat.mul_add]
    omega
  · intro c hc
    rcases List.mem_append.mp (List.mem_of_mem_take hc) with h | h
    · exact coefs_le _ _ _ h
    · exact coefs_le _ _ _ h
  · rw [List.take_take, Nat.min_eq_left hp.enough, List.take_left' (by rw [coefs_length, hm])]

theorem getD_le {e : List Nat} {B : Nat} (h : ∀ c ∈ e, c ≤ B) (i : Nat) : e.getD i 0 ≤ B := by
  rcases Nat.lt_or_ge i e.length with hi | hi
  · rw [List.getD_eq_getElem _ _ hi]; exact h _ (List.getElem_mem hi)
  · rw [List.getD_eq_default _ _ hi]; exact Nat.zero_le _

theorem chain_add (H : HashFn) (id : Bytes) (q i : Nat) (a b : Nat) : ∀ (j : Nat) (t : Bytes),
    chain H id q i j (a + b) t = chain H id q i (j + a) b (chain H id q i j a t) := by
  induction a with
  | zero => intro j t; rw [Nat.zero_add, Nat.add_zero]; rfl
  | succ a ih =>
    intro j t
    rw [show a + 1 + b = a + b + 1 by omega, chain, ih, chain, show j + 1 + a = j + (a + 1) by omega]

theorem chain_length (H : HashFn) (id : Bytes) (q i n : Nat) : ∀ (j : Nat) (t : Bytes), t.length = H.size → (chain H id q i j n t).length = H.size := by
  induction n with
  | zero => intro j t h; exact h
  | succ n ih => intro j t _; rw [chain]; exact ih _ _ (H.len _)

@[simp] theorem otsSecret_length (p : OtsParam) (q : Nat) (id seed : Bytes) : (otsSecret p q id seed).length = p.P := by simp [otsSecret]

theorem otsSecret_getD (p : OtsParam) (q : Nat) (id seed : Bytes) {i : Nat} (hi : i < p.P) :
    (otsSecret p q id seed).getD i [] = p.H.f (id ++ hx 4 q ++ hx 2 i ++ [0xff] ++ seed) := by
  rw [List.getD_eq_getElem _ _ (by simpa using hi)]
  simp [otsSecret]

theorem nonce_length {n : Nat} {optC rd : Option Bytes} {c : Bytes} (hC : ∀ c, optC = some c → c.length = n) (h : nonce n optC rd = some c) : c.length = n := by
  cases optC with
  | some c' => cases h; exact hC _ rfl
  | none =>
    rw [nonce, readBuf] at h
    cases rd with
    | none => cases h
    | some b => cases h; simp

/-- What signing with a fresh key does. -/
theorem otsSign_fresh {p : OtsParam} (hp : Spec.IsOts p) (q : Nat) (id seed msg : Bytes) (rd optC : Option Bytes) :
    (nonce p.N optC rd = none ∧ otsSign (newOtsKey p q id seed) rd msg optC = (newOtsKey p q id seed, .err)) ∨
    ∃ c e, nonce p.N optC rd = some c ∧ expand (p.H.f (id ++ hx 4 q ++ dMesg ++ c ++ msg)) p = .ok e ∧
      otsSign (newOtsKey p q id seed) rd msg optC = ({ newOtsKey p q id seed with x := [], valid := false },
        .ok { p, c, y := (List.range p.P).map fun i => chain p.H id q i 0 (e.getD i 0) ((otsSecret p q id seed).getD i []) }) := by
  cases hn : nonce p.N optC rd with
  | none =>
    left
    refine ⟨rfl, ?_⟩
    rw [otsSign]
    simp [newOtsKey, hn]
  | some c =>
    right
    obtain ⟨e, he, -⟩ := expand_spec hp (p.H.f (id ++ hx 4 q ++ dMesg ++ c ++ msg)) (by rw [p.H.len, hp.size])
    refine ⟨c, e, rfl, he, ?_⟩
    rw [otsSign]
    simp only [newOtsKey, Bool.not_true, Bool.false_eq_true, if_false, hn, he]

/-- The public key that a signature made with the secret elements leads to. -/
theorem recover_sign {p : OtsParam} (hp : Spec.IsOts p) (q : Nat) (id seed msg c : Bytes) (hc : c.length = p.N) (e : List Nat)
    (he : expand (p.H.f (id ++ hx 4 q ++ dMesg ++ c ++ msg)) p = .ok e) :
    recover { p, c, y := (List.range p.P).map fun i => chain p.H id q i 0 (e.getD i 0) ((otsSecret p q id seed).getD i []) } msg p id q =
      .ok (newOtsKey p q id seed).pub := by
  have hlen : ∀ i, i < p.P → (chain p.H id q i 0 (e.getD i 0) ((otsSecret p q id seed).getD i [])).length = p.H.size := by
    intro i hi
    exact chain_length _ _ _ _ _ _ _ (by rw [otsSecret_getD _ _ _ _ hi, p.H.len])
  have hle : ∀ c ∈ e, c ≤ 2 ^ p.W.val - 1 := by
    obtain ⟨e', he', -, h, -⟩ := expand_spec hp (p.H.f (id ++ hx 4 q ++ dMesg ++ c ++ msg)) (by rw [p.H.len, hp.size])
    rw [he'] at he
    cases he
    exact h
  rw [recover]
  simp only [ne_eq, not_true_eq_false, if_false]
  rw [if_neg (by rw [hc, hp.size]; simp), if_neg (by simp), if_neg]
  · rw [he, Res.bind_ok]
    congr 2
    rw [otsRoot]
    congr 2
    apply List.flatMap_congr
    intro i hi
    rw [List.mem_range] at hi
    have hd : ((List.range p.P).map fun i => chain p.H id q i 0 (e.getD i 0) ((otsSecret p q id seed).getD i [])).getD i [] =
        chain p.H id q i 0 (e.getD i 0) ((otsSecret p q id seed).getD i []) := by
      rw [List.getD_eq_getElem _ _ (by simpa using hi)]
      simp
    have := getD_le hle i
    rw [hd]
    conv_rhs => rw [show 2 ^ p.W.val - 1 = e.getD i 0 + (2 ^ p.W.val - 1 - e.getD i 0) by omega, chain_add, Nat.zero_add]
  · rw [Bool.not_eq_true, List.any_eq_false]
    intro y hy
    rw [List.mem_map] at hy
    obtain ⟨i, hi, rfl⟩ := hy
    rw [hlen i (List.mem_range.mp hi)]
    simp

end Verif.Pub.Lms
