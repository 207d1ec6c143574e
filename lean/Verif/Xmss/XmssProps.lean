import Verif.Xmss.XmssHist
/-!
# C143 to C146: hash based signatures (XMSS, XMSS-MT and XMSS over SM3)

`hs` gives the four hash functions; nothing is assumed of them but the length of their
digests.  `p` is one of the three packages, `oid` any parameter set it offers, and
`w.h` the height of that set.
-/

namespace Verif.Xmss
open Verif

/-- The number a signature or private key carries in front. -/
def indexOf (hs : HashId → Bytes → Bytes) (w : Row) (s : Bytes) : Nat :=
  fromBytes (s.take (w.params hs).ib)

theorem history (hs : HashId → Bytes → Bytes) (hlen : ∀ a x, (hs a x).length = a.size)
    (p : Pkg) (oid : Nat) (w : Row) (hrow : p.row oid = some w) (seed : Bytes)
    (hseed : seed.length = 3 * w.n) (ms : List Bytes) (hms : ms.length < 2 ^ w.h) :
    ∃ (priv pub : Bytes) (sigs : List Bytes) (priv' : Bytes),
      oidGenerate hs p seed oid = some (priv, pub) ∧
      oidSignMany hs p priv ms = .ok (sigs.map some, priv') ∧
      sigs.length = ms.length ∧
      indexOf hs w (priv'.drop 4) = ms.length ∧
      priv'.drop (4 + (w.params hs).ib) = priv.drop (4 + (w.params hs).ib) ∧
      oidExport hs p priv' = .ok pub ∧
      ∀ (i : Nat) (m sg : Bytes), ms[i]? = some m → sigs[i]? = some sg →
        sg.length = (w.params hs).signBytes + m.length ∧
        indexOf hs w sg = i ∧ sg.drop (w.params hs).signBytes = m ∧
        ∀ buf : Bytes, buf.length = sg.length → ∃ out, oidVerify hs p pub buf sg = .ok (true, out) ∧
          out.length = buf.length ∧
          ((w.params hs).d = 1 → out.drop (w.params hs).signBytes = m) ∧
          (m.length + w.pl + 3 * w.n ≤ (w.d - 1) * (w.h * w.n) →
            out.drop (w.params hs).signBytes = zeros m.length) := by
  have hlt := row_lt p oid w hrow
  have hoid : fromBytes (toBytes oid 4) = oid := fromBytes_toBytes _ _ (by omega)
  have hW := wf_row hs p oid w hrow
  have hr : ∀ x, ((w.params hs).hash x).length = w.hash.size := fun x => hlen w.hash x
  obtain ⟨s1, s2, s3, h1, h2, h3, hk⟩ := genKey_eq (w.params hs) hW seed hseed
  generalize hroot : node (w.params hs) s1 s3 ((w.params hs).d - 1) 0 (w.params hs).th 0 = root at hk
  have h4 : root.length = w.n := by
    rw [← hroot]; exact (Z_node (w.params hs) s1 s3 _ _ hr _ _).1
  have hmany := many_eq hs p oid w hrow s1 s2 s3 root h1 h2 h3 h4 ms 0 (by omega)
  have e0 : ∀ t, (toBytes oid 4 ++ t).take 4 = toBytes oid 4 := fun t =>
    List.take_left' (toBytes_len _ _)
  have e1 : ∀ t, (toBytes oid 4 ++ t).drop 4 = t := fun t =>
    List.drop_left' (toBytes_len _ _)
  have hpow : 2 ^ w.h ≤ 256 ^ (w.params hs).ib := hW.ix
  refine ⟨_, toBytes oid 4 ++ (root ++ s3), _, _, ?_, hmany, by simp, ?_, ?_, ?_, ?_⟩
  · unfold oidGenerate
    simp only [hrow]
    rw [hk]
  · unfold indexOf
    rw [e1]
    unfold prvOf
    rw [List.take_left' (toBytes_len _ _), fromBytes_toBytes _ _ (by omega)]
    omega
  · rw [drop_parts _ _ _ _ (toBytes_len _ _), drop_parts _ _ _ _ (toBytes_len _ _)]
    unfold prvOf
    rw [List.drop_left' (toBytes_len _ _), List.drop_left' (toBytes_len _ _)]
  · unfold oidExport
    rw [if_neg (by rw [List.length_append, toBytes_len]; omega), e0, e1, hoid]
    simp only [hrow]
    rw [if_neg (by rw [prvOf_len _ _ _ _ _ h1 h2 h3 h4]; omega)]
    have x3 : ((prvOf (w.params hs) (0 + ms.length) s1 s2 s3 root).drop
        ((w.params hs).ib + 2 * (w.params hs).n)).take (w.params hs).n = s3 := by
      unfold prvOf
      rw [drop_parts _ _ _ _ (toBytes_len _ _), show 2 * (w.params hs).n =
        (w.params hs).n + (w.params hs).n by omega, drop_parts _ _ _ _ h1,
        List.drop_left' h2, List.take_left' h3]
    have x4 : ((prvOf (w.params hs) (0 + ms.length) s1 s2 s3 root).drop
        ((w.params hs).ib + 3 * (w.params hs).n)).take (w.params hs).n = root := by
      unfold prvOf
      rw [drop_parts _ _ _ _ (toBytes_len _ _), show 3 * (w.params hs).n =
        (w.params hs).n + ((w.params hs).n + (w.params hs).n) by omega, drop_parts _ _ _ _ h1,
        drop_parts _ _ _ _ h2, List.drop_left' h3]
      exact List.take_of_length_le (Nat.le_of_eq h4)
    unfold publicKey
    rw [x3, x4]
  · intro i m sg hmi hsg
    have hi : i < ms.length := (List.getElem?_eq_some_iff.mp hmi).1
    rw [List.getElem?_mapIdx, hmi] at hsg
    simp only [Option.map_some, Option.some.injEq, Nat.zero_add] at hsg
    have hixb : fromBytes (toBytes i (w.params hs).ib) = i := fromBytes_toBytes _ _ (by omega)
    have hR : (prf (w.params hs) (zeros (w.params hs).n) s2 (toBytes i 32)).length =
        (w.params hs).n := (Z_prf hr (Z_zeros (w.params hs) _) _ _).1
    obtain ⟨tl, td⟩ := tail_drop hW i _ root m hR h4 _ (signBytes_ge hW)
    have hge := signBytes_ge hW
    have hZm : Z (w.params hs) w.hash.size (cp (zeros (w.params hs).n) (core (w.params hs)
        (msgPrefix (w.params hs) (prf (w.params hs) (zeros (w.params hs).n) s2 (toBytes i 32))
          root i ++ m))) := Z_cp hr (Z_zeros _ _) _
    have l1 := (layers_eq (w.params hs) s1 s3 hr hW.th (w.params hs).d 0 i _
      (zeros (w.params hs).n) (Addr.ofType 0) hZm (Z_zeros _ _) rfl).1
    have hform := signWith_eq hW hr i (toBytes i (w.params hs).ib) s1 s2 s3 root m
      (toBytes_len _ _) h1 h2 h3 h4
    change signWith (w.params hs) (prvOf (w.params hs) i s1 s2 s3 root) i m = _ at hform
    have hl : sg.length = (w.params hs).signBytes + m.length := by
      rw [← hsg, hform]
      simp only [List.length_append, toBytes_len, hR, l1, tl]
      omega
    refine ⟨hl, ?_, ?_, ?_⟩
    · rw [← hsg, hform]
      unfold indexOf
      rw [List.take_left' (toBytes_len _ _), hixb]
    · rw [← hsg, hform]
      have hS : (w.params hs).signBytes = (w.params hs).ib + ((w.params hs).n +
          ((w.params hs).d * ((w.params hs).wotsLen + (w.params hs).th * (w.params hs).n) +
          ((w.params hs).signBytes - ((w.params hs).ib + (w.params hs).n +
          (w.params hs).d * ((w.params hs).wotsLen + (w.params hs).th * (w.params hs).n))))) := by
        omega
      rw [hS, drop_parts _ _ _ _ (toBytes_len _ _), drop_parts _ _ _ _ hR,
        drop_parts _ _ _ _ l1]
      exact td
    · intro buf hb
      obtain ⟨out, o1, o2, o3⟩ := verify_signWith hW hr i (Nat.lt_trans hi hms)
        (toBytes i (w.params hs).ib) s1 s2 s3 root m buf (toBytes_len _ _) hixb h1 h2 h3 hroot.symm
        (hb.trans hl)
      refine ⟨out, ?_, o2, ?_, ?_⟩
      · unfold oidVerify
        rw [if_neg (by rw [List.length_append, toBytes_len]; omega), e0, e1, hoid]
        simp only [hrow]
        rw [← hsg]
        exact o1
      · intro hd
        have hth : (w.params hs).th = (w.params hs).h := by
          unfold Params.th; rw [hd, Nat.div_one]
        have hsb : (w.params hs).signBytes = (w.params hs).ib + (w.params hs).n +
          (w.params hs).d * ((w.params hs).wotsLen + (w.params hs).th * (w.params hs).n) := by
          unfold Params.signBytes
          rw [hth, hd]; omega
        rw [o3]
        rw [← hsb, Nat.sub_self, List.drop_zero] at td
        rw [← hsb, td, List.take_of_length_le (Nat.le_refl _)]
      · intro hm
        rw [o3]
        unfold tailOf
        have hoff : (w.params hs).ib + (w.params hs).n +
            (w.params hs).d * ((w.params hs).wotsLen + (w.params hs).th * (w.params hs).n) +
            m.length ≤ (w.params hs).signBytes - (w.params hs).pl - 3 * (w.params hs).n := by
          have hd1 := hW.d
          have hdt : (w.params hs).d * ((w.params hs).th * (w.params hs).n) =
              (w.params hs).h * (w.params hs).n := by rw [← Nat.mul_assoc, hW.hd]
          have hdd : (w.params hs).d * ((w.params hs).h * (w.params hs).n) =
              (w.d - 1) * (w.h * w.n) + (w.params hs).h * (w.params hs).n := by
            show w.d * (w.h * w.n) = (w.d - 1) * (w.h * w.n) + w.h * w.n
            obtain ⟨q, hq⟩ : ∃ q, w.d = q + 1 := ⟨w.d - 1, by
              have : 1 ≤ w.d := hd1
              omega⟩
            rw [hq, Nat.add_sub_cancel]; ring
          have hsb : (w.params hs).signBytes = (w.params hs).ib + (w.params hs).n +
            (w.params hs).d * (w.params hs).wotsLen +
            (w.params hs).d * ((w.params hs).h * (w.params hs).n) := rfl
          have hpl : (w.params hs).pl = w.pl := rfl
          have hn : (w.params hs).n = w.n := rfl
          rw [hsb, hdd, Nat.mul_add, hdt, hpl, hn]
          omega
        generalize (w.params hs).ib + (w.params hs).n +
            (w.params hs).d * ((w.params hs).wotsLen + (w.params hs).th * (w.params hs).n) = kk at *
        rw [List.append_assoc, List.drop_append_of_le_length (by simp [zeros]; omega),
          List.take_append_of_le_length (by simp [zeros]; omega)]
        simp [zeros]; omega

/-- **C143** (part).  From a new key, the `i`-th call of `Sign` (from 0) succeeds and uses
index `i`, and the private key then stores `ms.length` and is otherwise unchanged: no
one-time index is used twice.  What is missing: the last index `2^h - 1`, see the
counterexamples below. -/
theorem C143_index_partial (hs : HashId → Bytes → Bytes) (hlen : ∀ a x, (hs a x).length = a.size)
    (p : Pkg) (oid : Nat) (w : Row) (hrow : p.row oid = some w) (seed : Bytes)
    (hseed : seed.length = 3 * w.n) (ms : List Bytes) (hms : ms.length < 2 ^ w.h) :
    ∃ (priv pub : Bytes) (sigs : List Bytes) (priv' : Bytes),
      oidGenerate hs p seed oid = some (priv, pub) ∧
      oidSignMany hs p priv ms = .ok (sigs.map some, priv') ∧
      sigs.length = ms.length ∧
      (∀ (i : Nat) (sg : Bytes), sigs[i]? = some sg → indexOf hs w sg = i) ∧
      indexOf hs w (priv'.drop 4) = ms.length ∧
      priv'.drop (4 + (w.params hs).ib) = priv.drop (4 + (w.params hs).ib) := by
  obtain ⟨priv, pub, sigs, priv', a, b, c, d, e, -, f⟩ :=
    history hs hlen p oid w hrow seed hseed ms hms
  refine ⟨priv, pub, sigs, priv', a, b, c, ?_, d, e⟩
  intro i sg hsg
  have hi : i < sigs.length := (List.getElem?_eq_some_iff.mp hsg).1
  have hm : ms[i]? = some (ms[i]'(by omega)) := List.getElem?_eq_getElem (by omega)
  exact (f i _ sg hm hsg).2.1

/-- **C144** (part).  `Verify` accepts, under the key's public key, every signature of the
history of a new key, for every parameter set of the three packages, every hash and every
message; the public key is the one `ExportPublicKey` derives from the private key at any
time.  What is missing: the last index. -/
theorem C144_accepts_partial (hs : HashId → Bytes → Bytes)
    (hlen : ∀ a x, (hs a x).length = a.size)
    (p : Pkg) (oid : Nat) (w : Row) (hrow : p.row oid = some w) (seed : Bytes)
    (hseed : seed.length = 3 * w.n) (ms : List Bytes) (hms : ms.length < 2 ^ w.h) :
    ∃ (priv pub : Bytes) (sigs : List Bytes) (priv' : Bytes),
      oidGenerate hs p seed oid = some (priv, pub) ∧
      oidSignMany hs p priv ms = .ok (sigs.map some, priv') ∧
      oidExport hs p priv' = .ok pub ∧
      sigs.length = ms.length ∧
      ∀ (i : Nat) (m sg : Bytes), ms[i]? = some m → sigs[i]? = some sg →
        sg.drop (w.params hs).signBytes = m ∧
        ∀ buf : Bytes, buf.length = sg.length →
          ∃ out, oidVerify hs p pub buf sg = .ok (true, out) := by
  obtain ⟨priv, pub, sigs, priv', a, b, c, d, -, e, f⟩ :=
    history hs hlen p oid w hrow seed hseed ms hms
  refine ⟨priv, pub, sigs, priv', a, b, e, c, ?_⟩
  intro i m sg hm hsg
  obtain ⟨-, -, g1, g2⟩ := f i m sg hm hsg
  refine ⟨g1, fun buf hb => ?_⟩
  obtain ⟨out, h, -⟩ := g2 buf hb
  exact ⟨out, h⟩

/-- The hypotheses of `C143_index_partial` and `C144_accepts_partial` are met by every OID
of the tables, e.g. the two layer set `XMSSMT-SHA2_20/2_256` and three messages. -/
example : Pkg.xmssmt.row 1 = some ⟨.sha256, 32, 32, 20, 2⟩ ∧
    (List.replicate 96 (0 : Byte)).length = 3 * 32 ∧
    [[1], [2, 3], ([] : Bytes)].length < 2 ^ 20 ∧
    (∀ a x, ((fun (b : HashId) (_ : Bytes) => zeros b.size) a x).length = a.size) := by
  refine ⟨by decide +kernel, by simp, by simp, fun a x => by simp [zeros]⟩

/-! ## Spent keys -/

theorem fromBytes_ff (k : Nat) : fromBytes (List.replicate k (0xFF : Byte)) + 1 = 256 ^ k := by
  induction k with
  | zero => rfl
  | succ k ih =>
    unfold fromBytes at ih ⊢
    rw [List.replicate_succ', List.foldl_append]
    simp only [List.foldl_cons, List.foldl_nil]
    have : (0xFF : Byte).toNat = 255 := rfl
    rw [this, Nat.pow_succ]; omega

theorem wiped_len (P : Params) (prv : Bytes) (h : prv.length = P.prvBytes) (hn : P.ib ≤ 4 * P.n) :
    (wiped P prv).length = P.prvBytes := by
  have e : P.prvBytes = P.ib + 4 * P.n := rfl
  simp only [wiped, zeros, List.length_append, List.length_replicate, List.length_drop]
  omega

theorem wiped_take (P : Params) (prv : Bytes) :
    (wiped P prv).take P.ib = List.replicate P.ib 0xFF := by
  unfold wiped
  rw [List.append_assoc]
  exact List.take_left' (by simp)

theorem sign_spent (P : Params) (prv m : Bytes) (h : prv.length = P.prvBytes)
    (hi : 2 ^ P.h ≤ fromBytes (prv.take P.ib)) : sign P prv m = .ok (none, wiped P prv) := by
  have hp : 0 < 2 ^ P.h := Nat.two_pow_pos _
  unfold sign
  rw [if_neg (by omega)]
  simp only []
  rw [if_pos (by omega), if_pos (by omega)]

theorem sign_live (P : Params) (prv m : Bytes) (h : prv.length = P.prvBytes)
    (hi : fromBytes (prv.take P.ib) < 2 ^ P.h) :
    ∃ s rest, rest.length = 4 * P.n ∧ (P.ib ≤ 4 * P.n →
    sign P prv m = .ok (some s, toBytes (fromBytes (prv.take P.ib) + 1) P.ib ++ rest)) := by
  have e : P.prvBytes = P.ib + 4 * P.n := rfl
  by_cases hl : 2 ^ P.h - 1 ≤ fromBytes (prv.take P.ib)
  · by_cases hn : P.ib ≤ 4 * P.n
    · refine ⟨signWith P (wiped P prv) (fromBytes (prv.take P.ib)) m, (wiped P prv).drop P.ib, ?_, ?_⟩
      · rw [List.length_drop, wiped_len P prv h hn]; omega
      · intro _
        unfold sign
        rw [if_neg (by omega)]
        simp only []
        rw [if_pos hl, if_neg (by omega)]
    · exact ⟨[], zeros (4 * P.n), by simp [zeros], fun h => absurd h hn⟩
  · refine ⟨signWith P prv (fromBytes (prv.take P.ib)) m, prv.drop P.ib, ?_, ?_⟩
    · rw [List.length_drop]; omega
    · intro _
      unfold sign
      rw [if_neg (by omega)]
      simp only []
      rw [if_neg hl, if_neg (by omega)]

/-- **C143** (part).  For every parameter set whose index field has room for `2^h` (all but
the ones of height 40), from a private key of the right length at any index and for any
messages: call `i` succeeds exactly when the index it would use is below `2^h`.  A spent key
refuses for ever. -/
theorem C143_refuses_partial (P : Params) (hix : 2 ^ P.h < 256 ^ P.ib) (hn : P.ib ≤ 4 * P.n)
    (prv : Bytes) (h : prv.length = P.prvBytes) (ms : List Bytes) :
    ∃ rs prv', signMany P prv ms = .ok (rs, prv') ∧ rs.length = ms.length ∧
      ∀ (i : Nat) (o : Option Bytes), rs[i]? = some o →
        (o.isSome ↔ fromBytes (prv.take P.ib) + i < 2 ^ P.h) := by
  induction ms generalizing prv with
  | nil => exact ⟨[], prv, rfl, rfl, by simp⟩
  | cons m ms ih =>
    by_cases hs : fromBytes (prv.take P.ib) < 2 ^ P.h
    · obtain ⟨s, rest, hrest, e⟩ := sign_live P prv m h hs
      have e := e hn
      obtain ⟨rs, prv', e', hl, hi⟩ := ih (toBytes (fromBytes (prv.take P.ib) + 1) P.ib ++ rest)
        (by rw [List.length_append, toBytes_len, hrest]; rfl)
      rw [List.take_left' (toBytes_len _ _), fromBytes_toBytes _ _ (by omega)] at hi
      refine ⟨some s :: rs, prv', ?_, by simp [hl], ?_⟩
      · simp only [signMany, e, e']
      · intro i o ho
        cases i with
        | zero =>
          simp only [List.getElem?_cons_zero, Option.some.injEq] at ho
          rw [← ho]; simp [hs]
        | succ i =>
          rw [List.getElem?_cons_succ] at ho
          rw [hi i o ho]; omega
    · have e := sign_spent P prv m h (by omega)
      obtain ⟨rs, prv', e', hl, hi⟩ := ih (wiped P prv) (wiped_len P prv h hn)
      have hff := fromBytes_ff P.ib
      rw [wiped_take] at hi
      refine ⟨none :: rs, prv', ?_, by simp [hl], ?_⟩
      · simp only [signMany, e, e']
      · intro i o ho
        cases i with
        | zero =>
          simp only [List.getElem?_cons_zero, Option.some.injEq] at ho
          rw [← ho]; simp; omega
        | succ i =>
          rw [List.getElem?_cons_succ] at ho
          rw [hi i o ho]; omega

/-- `C143_refuses_partial` applies to every set of the packages `xmss` and `sm3xmss`, and to
those of heights 20 and 60 of `xmssmt`. -/
example (hs : HashId → Bytes → Bytes) : ∀ w ∈ xmssmtRow 1,
    2 ^ (w.params hs).h < 256 ^ (w.params hs).ib ∧ (w.params hs).ib ≤ 4 * (w.params hs).n := by
  have : xmssmtRow 1 = some ⟨.sha256, 32, 32, 20, 2⟩ := by decide +kernel
  rw [this]
  intro w hw
  simp only [Option.mem_def, Option.some.injEq] at hw
  subst hw
  show 2 ^ 20 < 256 ^ ((20 + 7) / 8) ∧ (20 + 7) / 8 ≤ 4 * 32
  decide

/-- **C143 is violated by the sets of height 40**: the five index bytes cannot hold `2^40`,
so `Sign` never refuses, and the call that uses the last index sets the stored index back
to 0. -/
theorem C143_wrap_violated (P : Params) (hix : 2 ^ P.h = 256 ^ P.ib) (hn : P.ib ≤ 4 * P.n)
    (prv m : Bytes) (h : prv.length = P.prvBytes)
    (hb : fromBytes (prv.take P.ib) < 256 ^ P.ib) :
    ∃ s prv', sign P prv m = .ok (some s, prv') ∧
      (fromBytes (prv.take P.ib) = 2 ^ P.h - 1 → fromBytes (prv'.take P.ib) = 0) := by
  obtain ⟨s, rest, hrest, e⟩ := sign_live P prv m h (by omega)
  refine ⟨s, _, e hn, ?_⟩
  intro hl
  have hp : 0 < 2 ^ P.h := Nat.two_pow_pos _
  rw [List.take_left' (toBytes_len _ _), hl, show 2 ^ P.h - 1 + 1 = 2 ^ P.h by omega, hix]
  have : ∀ k, fromBytes (toBytes (256 ^ k) k) = 0 := by
    intro k
    have : toBytes (256 ^ k) k = zeros k := by
      have hc : zeros k = (List.range k).map fun _ => (0 : Byte) := by
        simp [zeros, List.map_const']
      rw [hc]
      unfold toBytes
      apply List.map_congr_left
      intro i hi
      have hi' : i < k := List.mem_range.mp hi
      have e : 256 ^ k / 256 ^ (k - 1 - i) = 256 ^ i * 256 := by
        apply Nat.div_eq_of_eq_mul_left (Nat.pow_pos (by omega))
        rw [← Nat.pow_succ, ← Nat.pow_add]
        congr 1; omega
      rw [e]
      apply BitVec.eq_of_toNat_eq
      simp
    rw [this]
    unfold fromBytes zeros
    clear this
    induction k with
    | zero => rfl
    | succ k ih =>
      rw [List.replicate_succ', List.foldl_append, ih]; rfl
  exact this _

/-- The set `XMSSMT-SHA2_40/2_256` meets the hypotheses of `C143_wrap_violated`. -/
example (hs : HashId → Bytes → Bytes) : ∃ w, xmssmtRow 3 = some w ∧
    2 ^ (w.params hs).h = 256 ^ (w.params hs).ib ∧ (w.params hs).ib ≤ 4 * (w.params hs).n :=
  ⟨⟨.sha256, 32, 32, 40, 2⟩, by decide +kernel,
    show 2 ^ 40 = 256 ^ ((40 + 7) / 8) by decide, show (40 + 7) / 8 ≤ 4 * 32 by decide⟩

/-- **C143 and C144 are violated at the last index**: the signature `Sign` returns there
does not depend on the private seeds, which it has just overwritten with zeros: two private
keys that agree on the last `indexBytes` bytes of the public root give the same signature on
every message, and it carries `ff..ff` as its index. -/
theorem C143_last_violated (P : Params) (hW : Wf P) (r : Nat)
    (hr : ∀ x, (P.hash x).length = r) (hn : P.ib ≤ 4 * P.n) (prv1 prv2 m : Bytes)
    (h1 : prv1.length = P.prvBytes) (h2 : prv2.length = P.prvBytes)
    (i1 : fromBytes (prv1.take P.ib) = 2 ^ P.h - 1)
    (i2 : fromBytes (prv2.take P.ib) = 2 ^ P.h - 1)
    (hroot : prv1.drop (P.prvBytes - P.ib) = prv2.drop (P.prvBytes - P.ib)) :
    ∃ s p1 p2, sign P prv1 m = .ok (some s, p1) ∧ sign P prv2 m = .ok (some s, p2) ∧
      s.take P.ib = List.replicate P.ib 0xFF := by
  have key : ∀ prv : Bytes, prv.length = P.prvBytes → fromBytes (prv.take P.ib) = 2 ^ P.h - 1 →
      sign P prv m = .ok (some (signWith P (wiped P prv) (2 ^ P.h - 1) m),
        toBytes (2 ^ P.h - 1 + 1) P.ib ++ (wiped P prv).drop P.ib) := by
    intro prv h hi
    unfold sign
    rw [if_neg (by omega)]
    simp only []
    rw [hi, if_pos (Nat.le_refl _), if_neg (by omega)]
  have hw : wiped P prv1 = wiped P prv2 := by unfold wiped; rw [hroot]
  refine ⟨_, _, toBytes (2 ^ P.h - 1 + 1) P.ib ++ (wiped P prv2).drop P.ib, key prv1 h1 i1, ?_, ?_⟩
  · rw [key prv2 h2 i2, hw]
  · have hwl := wiped_len P prv1 h1 hn
    have hwt := wiped_take P prv1
    generalize wiped P prv1 = q at hwl hwt
    have e : P.prvBytes = P.ib + 4 * P.n := rfl
    have hq : q = q.take P.ib ++ ((q.drop P.ib).take P.n ++ ((q.drop (P.ib + P.n)).take P.n ++
        ((q.drop (P.ib + P.n + P.n)).take P.n ++ q.drop (P.ib + P.n + P.n + P.n)))) := by
      rw [← List.drop_drop (i := P.n) (j := P.ib + P.n + P.n), List.take_append_drop,
        ← List.drop_drop (i := P.n) (j := P.ib + P.n), List.take_append_drop,
        ← List.drop_drop (i := P.n) (j := P.ib), List.take_append_drop, List.take_append_drop]
    rw [hq, signWith_eq hW hr]
    · rw [List.take_left' (by rw [List.length_take]; omega), hwt]
    · rw [List.length_take]; omega
    · rw [List.length_take, List.length_drop]; omega
    · rw [List.length_take, List.length_drop]; omega
    · rw [List.length_take, List.length_drop]; omega
    · rw [List.length_drop]; omega

/-- The hypotheses of `C143_last_violated` are met by two keys with different seeds. -/
example : let P : Params := ⟨fun _ => zeros 32, 32, 32, 10, 1⟩
    let k1 : Bytes := toBytes 1023 4 ++ List.replicate 96 1 ++ List.replicate 32 9
    let k2 : Bytes := toBytes 1023 4 ++ List.replicate 96 2 ++ List.replicate 32 9
    k1 ≠ k2 ∧ k1.length = P.prvBytes ∧ k2.length = P.prvBytes ∧
    fromBytes (k1.take P.ib) = 2 ^ P.h - 1 ∧ fromBytes (k2.take P.ib) = 2 ^ P.h - 1 ∧
    k1.drop (P.prvBytes - P.ib) = k2.drop (P.prvBytes - P.ib) ∧ P.ib ≤ 4 * P.n := by
  decide +kernel

end Verif.Xmss
