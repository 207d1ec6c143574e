import Verif.Xmss.XmssSign
import Verif.Xmss.XmssParams
/-! # Histories of signatures, and the parameter tables -/

namespace Verif.Xmss
open Verif

/-- What the theorems need of a row. -/
def rowOk (w : Row) : Bool :=
  let P : Params := ⟨fun x => x, w.n, w.pl, w.h, w.d⟩
  decide (1 ≤ P.d ∧ 1 ≤ P.th ∧ P.d * P.th = P.h ∧ 2 ^ P.h ≤ 256 ^ P.ib ∧
    P.pl + 3 * P.n ≤ P.d * P.wotsLen + P.d * (P.h * P.n))

theorem row_lt (p : Pkg) (oid : Nat) (w : Row) (h : p.row oid = some w) : oid < 57 := by
  by_contra hc
  have hn : ∀ l : List Nat, (∀ x ∈ l, x < 57) → oid ∉ l := fun l hl hm => hc (hl _ hm)
  cases p with
  | xmss =>
    have e : xmssRow oid = none := by
      unfold xmssRow
      rw [if_neg (hn _ (by decide)), if_neg (hn _ (by decide)), if_neg (hn _ (by decide))]
      rfl
    rw [show Pkg.xmss.row oid = xmssRow oid from rfl, e] at h
    exact absurd h (by simp)
  | xmssmt =>
    have e : xmssmtRow oid = none := by
      unfold xmssmtRow
      rw [if_neg (hn _ (by decide)), if_neg (hn _ (by decide)), if_neg (hn _ (by decide))]
      rfl
    rw [show Pkg.xmssmt.row oid = xmssmtRow oid from rfl, e] at h
    exact absurd h (by simp)
  | sm3xmss =>
    have e : sm3xmssRow oid = none := by
      unfold sm3xmssRow
      rw [if_neg (by omega), if_neg (by omega), if_neg (by omega)]
    rw [show Pkg.sm3xmss.row oid = sm3xmssRow oid from rfl, e] at h
    exact absurd h (by simp)

theorem rows_ok_xmss : ∀ oid < 57, ∀ w ∈ xmssRow oid, rowOk w = true := by decide +kernel
theorem rows_ok_xmssmt : ∀ oid < 57, ∀ w ∈ xmssmtRow oid, rowOk w = true := by decide +kernel
theorem rows_ok_sm3xmss : ∀ oid < 57, ∀ w ∈ sm3xmssRow oid, rowOk w = true := by decide +kernel

theorem row_ok (p : Pkg) (oid : Nat) (w : Row) (h : p.row oid = some w) : rowOk w = true := by
  have hl := row_lt p oid w h
  cases p with
  | xmss => exact rows_ok_xmss oid hl w h
  | xmssmt => exact rows_ok_xmssmt oid hl w h
  | sm3xmss => exact rows_ok_sm3xmss oid hl w h

/-- Every parameter set of the three packages is one the theorems are about. -/
theorem wf_row (hs : HashId → Bytes → Bytes) (p : Pkg) (oid : Nat) (w : Row)
    (h : p.row oid = some w) : Wf (w.params hs) := by
  have := row_ok p oid w h
  unfold rowOk at this
  simp only [decide_eq_true_eq] at this
  obtain ⟨a, b, c, d, e⟩ := this
  exact ⟨a, b, c, d, e⟩

section
variable {P : Params} {r : Nat}

theorem prvOf_len (idx : Nat) (s1 s2 s3 root : Bytes) (h1 : s1.length = P.n)
    (h2 : s2.length = P.n) (h3 : s3.length = P.n) (h4 : root.length = P.n) :
    (prvOf P idx s1 s2 s3 root).length = P.prvBytes := by
  simp only [prvOf, List.length_append, toBytes_len, Params.prvBytes, h1, h2, h3, h4]; omega

theorem sign_step (hix : 2 ^ P.h ≤ 256 ^ P.ib) (idx : Nat) (hi : idx + 1 < 2 ^ P.h)
    (s1 s2 s3 root m : Bytes) (h1 : s1.length = P.n)
    (h2 : s2.length = P.n) (h3 : s3.length = P.n) (h4 : root.length = P.n) :
    sign P (prvOf P idx s1 s2 s3 root) m =
      .ok (some (signWith P (prvOf P idx s1 s2 s3 root) idx m),
        prvOf P (idx + 1) s1 s2 s3 root) := by
  have e0 : (prvOf P idx s1 s2 s3 root).take P.ib = toBytes idx P.ib :=
    List.take_left' (toBytes_len _ _)
  have e1 : (prvOf P idx s1 s2 s3 root).drop P.ib = s1 ++ (s2 ++ (s3 ++ root)) :=
    List.drop_left' (toBytes_len _ _)
  have e2 : fromBytes (toBytes idx P.ib) = idx := fromBytes_toBytes _ _ (by omega)
  unfold sign
  rw [if_neg (by rw [prvOf_len idx s1 s2 s3 root h1 h2 h3 h4]; omega)]
  simp only []
  rw [e0, e2, if_neg (by omega), if_neg (by omega), e1]
  rfl

end

/-- A run of signatures from index `idx` that stays below the last index. -/
theorem many_eq (hs : HashId → Bytes → Bytes) (p : Pkg) (oid : Nat) (w : Row)
    (hrow : p.row oid = some w) (s1 s2 s3 root : Bytes) (h1 : s1.length = w.n)
    (h2 : s2.length = w.n) (h3 : s3.length = w.n) (h4 : root.length = w.n)
    (ms : List Bytes) (idx : Nat) (hi : idx + ms.length < 2 ^ w.h) :
    oidSignMany hs p (toBytes oid 4 ++ prvOf (w.params hs) idx s1 s2 s3 root) ms =
      .ok ((ms.mapIdx fun i m => signWith (w.params hs)
          (prvOf (w.params hs) (idx + i) s1 s2 s3 root) (idx + i) m).map some,
        toBytes oid 4 ++ prvOf (w.params hs) (idx + ms.length) s1 s2 s3 root) := by
  have hlt := row_lt p oid w hrow
  have hoid : fromBytes (toBytes oid 4) = oid := fromBytes_toBytes _ _ (by omega)
  have hW := wf_row hs p oid w hrow
  induction ms generalizing idx with
  | nil => simp [oidSignMany]
  | cons m ms ih =>
    have e0 : ∀ t, (toBytes oid 4 ++ t).take 4 = toBytes oid 4 := fun t =>
      List.take_left' (toBytes_len _ _)
    have e1 : ∀ t, (toBytes oid 4 ++ t).drop 4 = t := fun t =>
      List.drop_left' (toBytes_len _ _)
    simp only [List.length_cons] at hi
    have hstep := sign_step (P := w.params hs) hW.ix idx (show idx + 1 < 2 ^ w.h by omega)
      s1 s2 s3 root m h1 h2 h3 h4
    unfold oidSignMany oidSign
    rw [if_neg (by rw [List.length_append, toBytes_len]; omega), e0, e1, hoid]
    simp only [hrow, hstep]
    rw [ih (idx + 1) (by omega)]
    simp only [List.mapIdx_cons, List.map_cons, List.length_cons, Nat.add_zero]
    rw [show idx + 1 + ms.length = idx + (ms.length + 1) by omega]
    simp only [show ∀ i, idx + 1 + i = idx + (i + 1) from fun i => by omega]

/-- A generated key in parts. -/
theorem genKey_eq (P : Params) (hW : Wf P) (seed : Bytes) (hs : seed.length = 3 * P.n) :
    ∃ s1 s2 s3 : Bytes, s1.length = P.n ∧ s2.length = P.n ∧ s3.length = P.n ∧
      genKey P seed = (prvOf P 0 s1 s2 s3 (node P s1 s3 (P.d - 1) 0 P.th 0),
        node P s1 s3 (P.d - 1) 0 P.th 0 ++ s3) := by
  refine ⟨seed.take P.n, (seed.drop P.n).take P.n, (seed.drop (2 * P.n)).take P.n, ?_, ?_, ?_, ?_⟩
  · rw [List.length_take]; omega
  · rw [List.length_take, List.length_drop]; omega
  · rw [List.length_take, List.length_drop]; omega
  · unfold genKey
    simp only []
    rw [treehash_eq P _ _ (P.d - 1) 0 0 ⟨P.d - 1, 0, 0, 0, 0, 0, 0⟩ rfl rfl (Nat.two_pow_pos _)]
    simp only []
    refine Prod.ext ?_ rfl
    simp only [prvOf]
    have z : toBytes 0 P.ib = zeros P.ib := by
      simp [toBytes, zeros, List.map_const']
    have sp : seed = seed.take P.n ++ ((seed.drop P.n).take P.n ++ (seed.drop (2 * P.n)).take P.n) := by
      have a : (seed.drop (2 * P.n)).take P.n = (seed.drop P.n).drop P.n := by
        rw [List.drop_drop, List.take_of_length_le (by rw [List.length_drop]; omega)]
        congr 1; omega
      rw [a, List.take_append_drop, List.take_append_drop]
    rw [z]
    generalize node P _ _ (P.d - 1) 0 P.th 0 = nd
    conv_lhs => rw [sp]
    simp only [List.append_assoc]

end Verif.Xmss
