import Verif.Xmss.XmssTree
/-! # The layers of a signature, and the bytes of the buffers -/

namespace Verif.Xmss
open Verif

theorem pieces_flatten (n : Nat) (l : List Bytes) (h : ∀ x ∈ l, x.length = n) (t : Bytes) :
    pieces n l.length (l.flatten ++ t) = l := by
  induction l with
  | nil => rfl
  | cons x l ih =>
    have hx : x.length = n := h x (by simp)
    simp only [List.length_cons, pieces, List.flatten_cons, List.append_assoc]
    rw [List.take_left' hx, List.drop_left' hx, ih (fun y hy => h y (by simp [hy]))]

theorem flatten_len (n : Nat) (l : List Bytes) (h : ∀ x ∈ l, x.length = n) :
    l.flatten.length = l.length * n := by
  induction l with
  | nil => simp
  | cons x l ih =>
    simp only [List.flatten_cons, List.length_append, List.length_cons]
    rw [ih (fun y hy => h y (by simp [hy])), h x (by simp)]; ring

section
variable (P : Params) (prvSeed pubSeed : Bytes)

/-- What one layer of `Sign` appends, and the root it leaves. -/
theorem layers_eq {r : Nat} (hr : ∀ x, (P.hash x).length = r) (hth : 1 ≤ P.th)
    (k i idx : Nat) (root otsSeed : Bytes) (a : Addr) (hroot : Z P r root) (hs : Z P r otsSeed)
    (ha : a.typ = 0) :
    (signLayers P prvSeed pubSeed k i idx root otsSeed a).1.length =
      k * (P.wotsLen + P.th * P.n) ∧
    (1 ≤ k → (signLayers P prvSeed pubSeed k i idx root otsSeed a).2 =
      node P prvSeed pubSeed (i + k - 1) (idx / 2 ^ (P.th * k)) P.th 0) ∧
    ∀ (tail : Bytes) (o l n : Addr), o.typ = 0 → l.typ = 1 → n.typ = 2 → n.a4 = 0 →
      verifyLayers P pubSeed k i idx root
        ((signLayers P prvSeed pubSeed k i idx root otsSeed a).1 ++ tail) o l n =
      ((signLayers P prvSeed pubSeed k i idx root otsSeed a).2, tail) := by
  induction k generalizing i idx root otsSeed a with
  | zero =>
    refine ⟨by simp [signLayers], by omega, ?_⟩
    intro tail o l n _ _ _ _
    simp [signLayers, verifyLayers]
  | succ k ih =>
    have hlt : idx % 2 ^ P.th < 2 ^ P.th := Nat.mod_lt _ (Nat.two_pow_pos _)
    generalize hL : idx % 2 ^ P.th = lf at hlt
    generalize hT : idx / 2 ^ P.th = tr
    have hseed : getSeed P otsSeed prvSeed { a with layer := i, tree := tr, a4 := lf } =
        ((getSeed P (zeros P.n) prvSeed ⟨i, tr, 0, lf, 0, 0, 0⟩).1, ⟨i, tr, 0, lf, 0, 0, 0⟩) := by
      unfold getSeed
      simp only []
      rw [prf_old hr hs, ha]
    have hs1 : Z P r (getSeed P (zeros P.n) prvSeed ⟨i, tr, 0, lf, 0, 0, 0⟩).1 :=
      Z_prf hr (Z_zeros P r) _ _
    have hleaf : leafOf P prvSeed pubSeed i tr lf =
        (lTree P pubSeed (wotsPublic P pubSeed (expandSeed P
          (getSeed P (zeros P.n) prvSeed ⟨i, tr, 0, lf, 0, 0, 0⟩).1)
          ⟨i, tr, 0, lf, 0, 0, 0⟩).1 ⟨i, tr, 1, lf, 0, 0, 0⟩).1 := rfl
    generalize (getSeed P (zeros P.n) prvSeed ⟨i, tr, 0, lf, 0, 0, 0⟩).1 = sd at hs1 hleaf hseed
    have hw2 := chains_addr P pubSeed (fun i => (0, (lengths P root).getD i 0)) 0
      (expandSeed P sd) ⟨i, tr, 0, lf, 0, 0, 0⟩
    have hwlen := chains_len P pubSeed (fun i => (0, (lengths P root).getD i 0)) 0
      (expandSeed P sd) ⟨i, tr, 0, lf, 0, 0, 0⟩
    have hwZ := Z_chains hr pubSeed (fun i => (0, (lengths P root).getD i 0)) 0
      (Z_expand hr sd) ⟨i, tr, 0, lf, 0, 0, 0⟩
    have hback : ∀ b : Addr, n567 ⟨i, tr, 0, lf, 0, 0, 0⟩ = n567 b → _ := fun b hb =>
      wots_back P pubSeed (expandSeed P sd) root (b := b) hb
      (rfl : n567 ⟨i, tr, 0, lf, 0, 0, 0⟩ = n567 ⟨i, tr, 0, lf, 0, 0, 0⟩)
    change n567 (wotsSign P pubSeed (expandSeed P sd) root ⟨i, tr, 0, lf, 0, 0, 0⟩).2 = _ at hw2
    change (wotsSign P pubSeed (expandSeed P sd) root ⟨i, tr, 0, lf, 0, 0, 0⟩).1.length = _ at hwlen
    change ∀ x ∈ (wotsSign P pubSeed (expandSeed P sd) root ⟨i, tr, 0, lf, 0, 0, 0⟩).1, _ at hwZ
    have hunf : signLayers P prvSeed pubSeed (k + 1) i idx root otsSeed a =
        (let w := wotsSign P pubSeed (expandSeed P sd) root ⟨i, tr, 0, lf, 0, 0, 0⟩
         let t := treehash P prvSeed pubSeed lf w.2
         let q := signLayers P prvSeed pubSeed k (i + 1) tr t.1 sd w.2
         (w.1.flatten ++ t.2.flatten ++ q.1, q.2)) := by
      simp only [signLayers]
      rw [hL, hT, hseed]
    generalize wotsSign P pubSeed (expandSeed P sd) root ⟨i, tr, 0, lf, 0, 0, 0⟩ = w at *
    have hwt : w.2.layer = i ∧ w.2.tree = tr ∧ w.2.typ = 0 := by
      generalize w.2 = q at hw2
      cases q; simp only [n567, Addr.mk.injEq] at hw2
      simp [hw2]
    rw [expand_len] at hwlen
    have htree := treehash_eq P prvSeed pubSeed i tr lf w.2 hwt.1 hwt.2.1 hlt
    have hZ := Z_node P prvSeed pubSeed i tr hr P.th 0
    obtain ⟨i1, i2, i3⟩ := ih (i + 1) tr (node P prvSeed pubSeed i tr P.th 0) sd w.2 hZ hs1 hwt.2.2
    have hwl : ∀ x ∈ w.1, x.length = P.n := fun x hx => (hwZ x hx).1
    have hal : ∀ x ∈ (List.range P.th).map
        (fun t => node P prvSeed pubSeed i tr t ((lf / 2 ^ t) ^^^ 1)), x.length = P.n := by
      intro x hx
      obtain ⟨t, -, rfl⟩ := List.mem_map.mp hx
      exact (Z_node P prvSeed pubSeed i tr hr t _).1
    simp only [] at hunf
    rw [htree] at hunf
    rw [hunf]
    simp only []
    have hf1 : w.1.flatten.length = P.wotsLen := by rw [flatten_len P.n _ hwl, hwlen]; rfl
    have hf2 := flatten_len P.n _ hal
    rw [List.length_map, List.length_range] at hf2
    refine ⟨?_, ?_, ?_⟩
    · simp only [List.length_append]
      rw [i1, hf1, hf2]; ring
    · intro _
      cases k with
      | zero =>
        simp only [signLayers]
        rw [show P.th * (0 + 1) = P.th by ring, hT]
        simp
      | succ k =>
        rw [i2 (by omega), ← hT, Nat.div_div_eq_div_mul, ← Nat.pow_add]
        rw [show i + 1 + (k + 1) - 1 = i + (k + 1 + 1) - 1 by omega,
          show P.th + P.th * (k + 1) = P.th * (k + 1 + 1) by ring]
    · intro tail o l n ho hl hn hn4
      simp only [verifyLayers]
      rw [hL, hT]
      have hp1 : pieces P.n P.wlen
          (w.1.flatten ++ ((List.range P.th).map
            (fun t => node P prvSeed pubSeed i tr t ((lf / 2 ^ t) ^^^ 1))).flatten ++
            (signLayers P prvSeed pubSeed k (i + 1) tr (node P prvSeed pubSeed i tr P.th 0) sd
              w.2).1 ++ tail) = w.1 := by
        rw [← hwlen, List.append_assoc, List.append_assoc]
        exact pieces_flatten P.n w.1 hwl _
      have hd1 : (w.1.flatten ++ ((List.range P.th).map
            (fun t => node P prvSeed pubSeed i tr t ((lf / 2 ^ t) ^^^ 1))).flatten ++
            (signLayers P prvSeed pubSeed k (i + 1) tr (node P prvSeed pubSeed i tr P.th 0) sd
              w.2).1 ++ tail).drop P.wotsLen =
          ((List.range P.th).map
            (fun t => node P prvSeed pubSeed i tr t ((lf / 2 ^ t) ^^^ 1))).flatten ++
            ((signLayers P prvSeed pubSeed k (i + 1) tr (node P prvSeed pubSeed i tr P.th 0) sd
              w.2).1 ++ tail) := by
        rw [List.append_assoc, List.append_assoc]
        exact List.drop_left' hf1
      have hlen : ((List.range P.th).map
            (fun t => node P prvSeed pubSeed i tr t ((lf / 2 ^ t) ^^^ 1))).length = P.th := by simp
      have hp2 : ∀ t, pieces P.n P.th (((List.range P.th).map
            (fun t => node P prvSeed pubSeed i tr t ((lf / 2 ^ t) ^^^ 1))).flatten ++ t) =
          (List.range P.th).map
            (fun t => node P prvSeed pubSeed i tr t ((lf / 2 ^ t) ^^^ 1)) := by
        intro t
        have := pieces_flatten P.n _ hal t
        rwa [hlen] at this
      rw [hp1, hd1, hp2, List.drop_left' hf2]
      have hO : n567 { o with layer := i, tree := tr, a4 := lf } =
          n567 ⟨i, tr, 0, lf, 0, 0, 0⟩ := by rw [ho]; rfl
      have hLt : n567 { l with layer := i, tree := tr, a4 := lf } =
          n567 ⟨i, tr, 1, lf, 0, 0, 0⟩ := by rw [hl]; rfl
      have hN : n567 { n with layer := i, tree := tr } = ⟨i, tr, 2, 0, 0, 0, 0⟩ := by
        rw [hn, hn4]; rfl
      have hb := hback _ hO.symm
      have ho2 := chains_addr P pubSeed
        (fun i => ((lengths P root).getD i 0, 15 - (lengths P root).getD i 0)) 0 w.1
        { o with layer := i, tree := tr, a4 := lf }
      change n567 (wotsGetPublic P pubSeed w.1 root
        { o with layer := i, tree := tr, a4 := lf }).2 = _ at ho2
      rw [hO] at ho2
      generalize wotsGetPublic P pubSeed w.1 root
        { o with layer := i, tree := tr, a4 := lf } = g at *
      have hlf := lTree_congr P pubSeed g.1 hLt
      have hl2 := lTree_addr P pubSeed g.1 { l with layer := i, tree := tr, a4 := lf }
      rw [hLt] at hl2
      rw [hb] at hlf hl2
      rw [hb]
      rw [hlf, ← hleaf]
      generalize lTree P pubSeed (wotsPublic P pubSeed (expandSeed P sd)
        ⟨i, tr, 0, lf, 0, 0, 0⟩).1 { l with layer := i, tree := tr, a4 := lf } = lt at *
      obtain ⟨c1, c2⟩ := computeRoot_eq P prvSeed pubSeed i tr hr root hroot lf hlt hth
        { n with layer := i, tree := tr } hN
      rw [c1]
      generalize computeRoot P root (leafOf P prvSeed pubSeed i tr lf)
        ((List.range P.th).map
            (fun t => node P prvSeed pubSeed i tr t ((lf / 2 ^ t) ^^^ 1)))
        pubSeed lf { n with layer := i, tree := tr } = cr at *
      apply i3
      · generalize g.2 = q at ho2
        cases q; simp only [n567, Addr.mk.injEq] at ho2; simp [ho2]
      · generalize lt.2 = q at hl2
        cases q; simp only [n567, Addr.mk.injEq] at hl2; simp [hl2]
      · generalize cr.2 = q at c2
        cases q; simp only [n567, Addr.mk.injEq] at c2; simp [c2]
      · generalize cr.2 = q at c2
        cases q; simp only [n567, Addr.mk.injEq] at c2; simp [c2]

end

theorem put_in (buf src : Bytes) (off : Nat) (h : off + src.length ≤ buf.length) :
    put buf off src = buf.take off ++ src ++ buf.drop (off + src.length) := by
  unfold put cp
  have t : src.take (buf.drop off).length = src :=
    List.take_of_length_le (by rw [List.length_drop]; omega)
  rw [t, List.drop_drop, List.append_assoc]

theorem put_len (buf src : Bytes) (off : Nat) : (put buf off src).length = buf.length := by
  unfold put
  rw [List.length_append, cp_len, ← List.length_append, List.take_append_drop]

theorem toBytes_len (x y : Nat) : (toBytes x y).length = y := by simp [toBytes]

theorem toBytes_succ (x y : Nat) : toBytes x (y + 1) = toBytes (x / 256) y ++ [BitVec.ofNat 8 x] := by
  unfold toBytes
  rw [List.range_succ, List.map_append]
  congr 1
  · apply List.map_congr_left
    intro i hi
    have hi' : i < y := List.mem_range.mp hi
    rw [Nat.div_div_eq_div_mul, ← Nat.pow_succ']
    congr 3
    omega
  · simp

theorem fromBytes_toBytes (x y : Nat) (h : x < 256 ^ y) : fromBytes (toBytes x y) = x := by
  induction y generalizing x with
  | zero => simp at h; subst h; rfl
  | succ y ih =>
    have hx : x / 256 < 256 ^ y := by
      apply Nat.div_lt_of_lt_mul; rw [Nat.pow_succ] at h; omega
    have := ih _ hx
    unfold fromBytes at this ⊢
    rw [toBytes_succ, List.foldl_append, this]
    simp
    omega

end Verif.Xmss
