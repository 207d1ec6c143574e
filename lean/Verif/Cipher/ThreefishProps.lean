import Verif.Cipher.Threefish
/-
C171: Threefish (cipher/threefish).  The specification is section 3.3 of the Skein paper, version 1.3, round by round.
-/
namespace Verif.Cipher.Threefish

namespace Spec

/-- The permutation π (Table 3 of the paper). -/
def pi : Nat → List Nat
  | 4 => [0, 3, 2, 1]
  | 8 => [2, 1, 4, 7, 6, 5, 0, 3]
  | _ => [0, 9, 2, 13, 6, 11, 4, 15, 10, 7, 12, 3, 14, 5, 8, 1]

/-- The rotation constants `R_{d mod 8, j}` (Table 4 of the paper). -/
def R : Nat → List (List Nat)
  | 4 => [[14, 16], [52, 57], [23, 40], [5, 37], [25, 33], [46, 12], [58, 22], [32, 32]]
  | 8 => [[46, 36, 19, 37], [33, 27, 14, 42], [17, 49, 36, 39], [44, 9, 54, 56],
          [39, 30, 34, 24], [13, 50, 10, 17], [25, 29, 39, 43], [8, 35, 56, 22]]
  | _ => [[24, 13, 8, 47, 8, 17, 22, 37], [38, 19, 10, 55, 49, 18, 23, 52], [33, 4, 51, 13, 34, 41, 59, 17], [5, 20, 48, 41, 47, 28, 16, 25],
          [41, 9, 37, 31, 12, 47, 44, 30], [16, 34, 56, 51, 4, 53, 42, 41], [31, 44, 47, 46, 19, 42, 44, 25], [9, 48, 35, 52, 23, 31, 37, 20]]

/-- The number of rounds. -/
def rounds : Nat → Nat
  | 4 => 72
  | 8 => 72
  | _ => 80

/-- The subkey words `k_{s,i}` of a key of `nw` words and a tweak of two. -/
def subkey (nw : Nat) (k : List W) (t0 t1 : W) (s i : Nat) : W :=
  let kx (j : Nat) : W := if j = nw then k.foldl (· ^^^ ·) 0x1bd11bdaa9fc1a22#64 else k.getD j 0
  let t (j : Nat) : W := if j = 0 then t0 else if j = 1 then t1 else t0 ^^^ t1
  kx ((s + i) % (nw + 1)) +
    (if i + 3 = nw then t (s % 3) else 0) + (if i + 2 = nw then t ((s + 1) % 3) else 0) + (if i + 1 = nw then BitVec.ofNat 64 s else 0)

/-- Round `d` on the words `v`: add the subkey if `d` is a multiple of 4, MIX each pair, permute. -/
def round (nw : Nat) (sk : Nat → Nat → W) (v : List W) (d : Nat) : List W :=
  let e (i : Nat) : W := if d % 4 = 0 then v.getD i 0 + sk (d / 4) i else v.getD i 0
  let rot (j : Nat) : Nat := ((R nw).getD (d % 8) []).getD j 0
  let f (i : Nat) : W := if i % 2 = 0 then e i + e (i + 1) else (e i).rotateLeft (rot (i / 2)) ^^^ (e (i - 1) + e i)
  (List.range nw).map fun i => f ((pi nw).getD i 0)

/-- The block function on words. -/
def words (nw : Nat) (sk : Nat → Nat → W) (v : List W) : List W :=
  let w := (List.range (rounds nw)).foldl (round nw sk) v
  (List.range nw).map fun i => w.getD i 0 + sk (rounds nw / 4) i

/-- Threefish with `nw` words: the block of `8·nw` bytes a block is encrypted to. -/
def encrypt (nw : Nat) (key tweak block : Bytes) : Bytes :=
  let sk := subkey nw (ldLE 64 8 nw key) (BitVec.ofNat 64 (leN (tweak.take 8))) (BitVec.ofNat 64 (leN (tweak.drop 8)))
  stLE 8 (words nw sk (ldLE 64 8 nw block))

end Spec

theorem mix_length : ∀ (l : List W) (ns : List Nat), (mix l ns).length = l.length
  | x :: y :: l, n :: ns => by simp [mix, mix_length l ns]
  | [], _ => by simp [mix]
  | [x], _ => by simp [mix]
  | x :: y :: l, [] => by simp [mix]

theorem unmix_length : ∀ (l : List W) (ns : List Nat), (unmix l ns).length = l.length
  | x :: y :: l, n :: ns => by simp [unmix, unmix_length l ns]
  | [], _ => by simp [unmix]
  | [x], _ => by simp [unmix]
  | x :: y :: l, [] => by simp [unmix]

theorem unmix_mix : ∀ (l : List W) (ns : List Nat), (∀ n ∈ ns, n ≤ 64) → unmix (mix l ns) ns = l
  | x :: y :: l, n :: ns, h => by
    have hn : n ≤ 64 := h n (by simp)
    simp only [mix, unmix]
    rw [BitVec.xor_assoc, BitVec.xor_self, BitVec.xor_zero, rotl_rotl y n (64 - n) (by omega), unmix_mix l ns (fun m hm => h m (by simp [hm]))]
    simp
  | [], _, _ => by simp [mix, unmix]
  | [x], _, _ => by simp [mix, unmix]
  | x :: y :: l, [], _ => by simp [mix, unmix]

theorem mix_unmix : ∀ (l : List W) (ns : List Nat), (∀ n ∈ ns, n ≤ 64) → mix (unmix l ns) ns = l
  | x :: y :: l, n :: ns, h => by
    have hn : n ≤ 64 := h n (by simp)
    simp only [mix, unmix]
    rw [BitVec.sub_add_cancel, rotl_rotl (y ^^^ x) (64 - n) n (by omega), BitVec.xor_assoc, BitVec.xor_self, BitVec.xor_zero,
      mix_unmix l ns (fun m hm => h m (by simp [hm]))]
  | [], _, _ => by simp [mix, unmix]
  | [x], _, _ => by simp [mix, unmix]
  | x :: y :: l, [], _ => by simp [mix, unmix]

theorem mix_append : ∀ (l r : List W) (ns : List Nat), l.length = 2 * ns.length → mix (l ++ r) ns = mix l ns ++ r
  | x :: y :: l, r, n :: ns, h => by
    simp only [List.cons_append, mix]
    rw [mix_append l r ns (by simp at h; omega)]
  | [], r, [], _ => by cases r with | nil => rfl | cons a r => cases r <;> rfl
  | [x], r, ns, h => by simp at h; omega
  | [], r, n :: ns, h => by simp at h
  | x :: y :: l, r, [], h => by simp at h

theorem addKey_length : ∀ ks l : List W, (addKey ks l).length = l.length
  | [], _ => by simp [addKey]
  | _ :: _, [] => by simp [addKey]
  | k :: ks, x :: l => by simp [addKey, addKey_length ks l]

theorem subKey_length : ∀ ks l : List W, (subKey ks l).length = l.length
  | [], _ => by simp [subKey]
  | _ :: _, [] => by simp [subKey]
  | k :: ks, x :: l => by simp [subKey, subKey_length ks l]

theorem subKey_addKey : ∀ ks l : List W, subKey ks (addKey ks l) = l
  | [], _ => by simp [subKey, addKey]
  | _ :: _, [] => by simp [subKey, addKey]
  | k :: ks, x :: l => by simp [subKey, addKey, subKey_addKey ks l]

theorem addKey_subKey : ∀ ks l : List W, addKey ks (subKey ks l) = l
  | [], _ => by simp [subKey, addKey]
  | _ :: _, [] => by simp [subKey, addKey]
  | k :: ks, x :: l => by simp [subKey, addKey, addKey_subKey ks l]

theorem addKey_append : ∀ (ks l r : List W), ks.length = l.length → addKey ks (l ++ r) = addKey ks l ++ r
  | [], [], r, _ => by simp [addKey]
  | [], _ :: _, r, h => by simp at h
  | _ :: _, [], r, h => by simp at h
  | k :: ks, x :: l, r, h => by simp [addKey, addKey_append ks l r (by simpa using h)]

theorem permute_length (p : List Nat) (l : List W) (h : p.length ≤ l.length) : (permute p l).length = l.length := by
  simp [permute]; omega

theorem permute_append (p : List Nat) (l r : List W) (h : p.length = l.length) (hp : ∀ i ∈ p, i < l.length) :
    permute p (l ++ r) = permute p l ++ r := by
  simp only [permute, h, List.drop_left', List.drop_length, List.append_nil]
  congr 1
  refine List.map_congr_left fun i hi => ?_
  rw [List.getD_eq_getElem?_getD, List.getD_eq_getElem?_getD, List.getElem?_append_left (hp i hi)]

/-- What the proofs need of the numbers of a file. -/
structure Good (P : Prm) : Prop where
  gl : P.g.length = P.nw
  dl : P.d.length = P.nw
  gi : ∀ i ∈ P.g, i < P.nw
  rl : ∀ r < 8, 2 * (P.rot.getD r []).length = P.nw
  le : ∀ r < 8, ∀ n ∈ P.rot.getD r [], n ≤ 64
  rev : ∀ r < 8, (P.drot.getD (7 - r) []).reverse = P.rot.getD r []
  dg : ∀ l : List W, l.length = P.nw → permute P.d (permute P.g l) = l
  gd : ∀ l : List W, l.length = P.nw → permute P.g (permute P.d l) = l
  nwEq : P.nw = 4 ∨ P.nw = 8 ∨ P.nw = 16
  rEq : P.rounds % 8 = 0

theorem good256 : Good p256 where
  gl := rfl
  dl := rfl
  gi := by decide
  rl := by decide
  le := by decide
  rev := by decide
  dg l h := match l, h with | [_, _, _, _], _ => rfl
  gd l h := match l, h with | [_, _, _, _], _ => rfl
  nwEq := by decide
  rEq := by decide

theorem good512 : Good p512 where
  gl := rfl
  dl := rfl
  gi := by decide
  rl := by decide
  le := by decide
  rev := by decide
  dg l h := match l, h with | [_, _, _, _, _, _, _, _], _ => rfl
  gd l h := match l, h with | [_, _, _, _, _, _, _, _], _ => rfl
  nwEq := by decide
  rEq := by decide

theorem good1024 : Good p1024 where
  gl := rfl
  dl := rfl
  gi := by decide
  rl := by decide
  le := by decide
  rev := by decide
  dg l h := match l, h with | [_, _, _, _, _, _, _, _, _, _, _, _, _, _, _, _], _ => rfl
  gd l h := match l, h with | [_, _, _, _, _, _, _, _, _, _, _, _, _, _, _, _], _ => rfl
  nwEq := by decide
  rEq := by decide

variable {P : Prm}

theorem gRound_length (hP : Good P) (r : Nat) {l : List W} (h : l.length = P.nw) : (gRound P r l).length = P.nw := by
  rw [gRound, permute_length _ _ (by rw [mix_length, hP.gl]; omega), mix_length, h]

theorem dRound_length (hP : Good P) (r : Nat) {l : List W} (h : l.length = P.nw) : (dRound P r l).length = P.nw := by
  rw [dRound, unmix_length, permute_length _ _ (by rw [hP.dl]; omega), h]

theorem dRound_gRound (hP : Good P) (r : Nat) (hr : r < 8) {l : List W} (h : l.length = P.nw) : dRound P (7 - r) (gRound P r l) = l := by
  rw [dRound, gRound, hP.rev r hr, hP.dg _ (by rw [mix_length]; exact h), unmix_mix _ _ (hP.le r hr)]

theorem gRound_dRound (hP : Good P) (r : Nat) (hr : r < 8) {l : List W} (h : l.length = P.nw) : gRound P r (dRound P (7 - r) l) = l := by
  rw [dRound, gRound, hP.rev r hr, mix_unmix _ _ (hP.le r hr), hP.gd _ h]

theorem gRound_append (hP : Good P) (r : Nat) (hr : r < 8) {l : List W} (h : l.length = P.nw) (x : List W) :
    gRound P r (l ++ x) = gRound P r l ++ x := by
  rw [gRound, gRound, mix_append _ _ _ (by rw [hP.rl r hr]; exact h),
    permute_append _ _ _ (by rw [mix_length, hP.gl, h]) (by rw [mix_length, h]; exact hP.gi)]

section
variable {c : Ciph} (hP : Good c.P) (hk : ∀ s, (c.ks s).length = c.P.nw)
include hP

theorem encEight_length {l : List W} (h : l.length = c.P.nw) (j : Nat) : (encEight c l j).length = c.P.nw := by
  have a := addKey_length (c.ks (2 * j)) l
  simp only [encEight]
  refine gRound_length hP _ (gRound_length hP _ (gRound_length hP _ (gRound_length hP _ ?_)))
  rw [addKey_length]
  refine gRound_length hP _ (gRound_length hP _ (gRound_length hP _ (gRound_length hP _ ?_)))
  rw [addKey_length, h]

theorem decEight_length {l : List W} (h : l.length = c.P.nw) (j : Nat) : (decEight c l j).length = c.P.nw := by
  simp only [decEight]
  rw [subKey_length]
  refine dRound_length hP _ (dRound_length hP _ (dRound_length hP _ (dRound_length hP _ ?_)))
  rw [subKey_length]
  exact dRound_length hP _ (dRound_length hP _ (dRound_length hP _ (dRound_length hP _ h)))

theorem four_dg (a : Nat) (ha : a = 0 ∨ a = 4) {l : List W} (h : l.length = c.P.nw) :
    dRound c.P (7 - a) (dRound c.P (7 - (a + 1)) (dRound c.P (7 - (a + 2)) (dRound c.P (7 - (a + 3))
      (gRound c.P (a + 3) (gRound c.P (a + 2) (gRound c.P (a + 1) (gRound c.P a l))))))) = l := by
  have h1 := gRound_length hP a h
  have h2 := gRound_length hP (a + 1) h1
  have h3 := gRound_length hP (a + 2) h2
  rw [dRound_gRound hP _ (by omega) h3, dRound_gRound hP _ (by omega) h2, dRound_gRound hP _ (by omega) h1, dRound_gRound hP _ (by omega) h]

theorem four_gd (a : Nat) (ha : a = 0 ∨ a = 4) {l : List W} (h : l.length = c.P.nw) :
    gRound c.P (a + 3) (gRound c.P (a + 2) (gRound c.P (a + 1) (gRound c.P a
      (dRound c.P (7 - a) (dRound c.P (7 - (a + 1)) (dRound c.P (7 - (a + 2)) (dRound c.P (7 - (a + 3)) l))))))) = l := by
  have h1 := dRound_length hP (7 - (a + 3)) h
  have h2 := dRound_length hP (7 - (a + 2)) h1
  have h3 := dRound_length hP (7 - (a + 1)) h2
  rw [gRound_dRound hP _ (by omega) h3, gRound_dRound hP _ (by omega) h2, gRound_dRound hP _ (by omega) h1, gRound_dRound hP _ (by omega) h]

theorem dec_encEight {l : List W} (h : l.length = c.P.nw) (j : Nat) : decEight c (encEight c l j) j = l := by
  simp only [encEight, decEight]
  have h1 : (addKey (c.ks (2 * j)) l).length = c.P.nw := by rw [addKey_length, h]
  have h2 := gRound_length hP 3 (gRound_length hP 2 (gRound_length hP 1 (gRound_length hP 0 h1)))
  have h3 : (addKey (c.ks (2 * j + 1)) (gRound c.P 3 (gRound c.P 2 (gRound c.P 1 (gRound c.P 0 (addKey (c.ks (2 * j)) l)))))).length = c.P.nw := by
    rw [addKey_length, h2]
  have e1 := four_dg hP 4 (.inr rfl) h3
  have e2 := four_dg hP 0 (.inl rfl) h1
  simp only [Nat.reduceAdd, Nat.reduceSub, Nat.zero_add] at e1 e2
  rw [e1, subKey_addKey, e2, subKey_addKey]

theorem enc_decEight {l : List W} (h : l.length = c.P.nw) (j : Nat) : encEight c (decEight c l j) j = l := by
  simp only [encEight, decEight]
  have h2 := dRound_length hP 3 (dRound_length hP 2 (dRound_length hP 1 (dRound_length hP 0 h)))
  have h3 : (subKey (c.ks (2 * j + 1)) (dRound c.P 3 (dRound c.P 2 (dRound c.P 1 (dRound c.P 0 l))))).length = c.P.nw := by
    rw [subKey_length, h2]
  have e1 := four_gd hP 4 (.inr rfl) h
  have e2 := four_gd hP 0 (.inl rfl) h3
  simp only [Nat.reduceAdd, Nat.reduceSub, Nat.zero_add] at e1 e2
  rw [addKey_subKey, e2, addKey_subKey, e1]

omit hP in
theorem foldl_length (f : List W → Nat → List W) (hf : ∀ l : List W, l.length = c.P.nw → ∀ j, (f l j).length = c.P.nw) :
    ∀ (js : List Nat) (l : List W), l.length = c.P.nw → (js.foldl f l).length = c.P.nw
  | [], l, h => h
  | j :: js, l, h => foldl_length f hf js _ (hf l h j)

omit hP in
theorem foldl_inv (f g : List W → Nat → List W) (hf : ∀ l : List W, l.length = c.P.nw → ∀ j, (f l j).length = c.P.nw)
    (hgf : ∀ l : List W, l.length = c.P.nw → ∀ j, g (f l j) j = l) :
    ∀ (js : List Nat) (l : List W), l.length = c.P.nw → js.reverse.foldl g (js.foldl f l) = l
  | [], l, h => rfl
  | j :: js, l, h => by
    rw [List.reverse_cons, List.foldl_append, List.foldl_cons (l := js), foldl_inv f g hf hgf js _ (hf l h j)]
    exact hgf l h j

theorem decWords_encWords {l : List W} (h : l.length = c.P.nw) : decWords c (encWords c l) = l := by
  rw [decWords, encWords, subKey_addKey]
  exact foldl_inv _ _ (fun l h j => encEight_length hP h j) (fun l h j => dec_encEight hP h j) _ _ h

theorem encWords_decWords {l : List W} (h : l.length = c.P.nw) : encWords c (decWords c l) = l := by
  rw [decWords, encWords]
  have := foldl_inv (decEight c) (encEight c) (fun l h j => decEight_length hP h j) (fun l h j => enc_decEight hP h j)
    (List.range (c.P.rounds / 8)).reverse (subKey (c.ks (c.P.rounds / 4)) l) (by rw [subKey_length, h])
  rw [List.reverse_reverse] at this
  rw [this, addKey_subKey]

theorem encWords_length {l : List W} (h : l.length = c.P.nw) : (encWords c l).length = c.P.nw := by
  rw [encWords, addKey_length]
  exact foldl_length _ (fun l h j => encEight_length hP h j) _ _ h

theorem decWords_length {l : List W} (h : l.length = c.P.nw) : (decWords c l).length = c.P.nw := by
  rw [decWords]
  exact foldl_length _ (fun l h j => decEight_length hP h j) _ _ (by rw [subKey_length, h])

include hk

theorem encEight_append {l : List W} (h : l.length = c.P.nw) (x : List W) (j : Nat) : encEight c (l ++ x) j = encEight c l j ++ x := by
  simp only [encEight]
  have h0 : (addKey (c.ks (2 * j)) l).length = c.P.nw := by rw [addKey_length, h]
  have h1 := gRound_length hP 0 h0
  have h2 := gRound_length hP 1 h1
  have h3 := gRound_length hP 2 h2
  have h4 := gRound_length hP 3 h3
  rw [addKey_append _ _ _ (by rw [hk, h]), gRound_append hP 0 (by decide) h0, gRound_append hP 1 (by decide) h1,
    gRound_append hP 2 (by decide) h2, gRound_append hP 3 (by decide) h3, addKey_append _ _ _ (by rw [hk, h4])]
  have h5 := (addKey_length (c.ks (2 * j + 1)) _).trans h4
  have h6 := gRound_length hP 4 h5
  have h7 := gRound_length hP 5 h6
  have h8 := gRound_length hP 6 h7
  rw [gRound_append hP 4 (by decide) h5, gRound_append hP 5 (by decide) h6, gRound_append hP 6 (by decide) h7, gRound_append hP 7 (by decide) h8]

theorem encWords_append {l : List W} (h : l.length = c.P.nw) (x : List W) : encWords c (l ++ x) = encWords c l ++ x := by
  have key : ∀ (js : List Nat) (l : List W), l.length = c.P.nw → js.foldl (encEight c) (l ++ x) = js.foldl (encEight c) l ++ x := by
    intro js
    induction js with
    | nil => intro l _; rfl
    | cons j js ih =>
      intro l h
      rw [List.foldl_cons, List.foldl_cons, encEight_append hP hk h, ih _ (encEight_length hP h j)]
  rw [encWords, encWords, key _ _ h, addKey_append]
  rw [hk, foldl_length _ (fun l h j => encEight_length hP h j) _ _ h]

end

theorem subkey_length (P : Prm) (key tweak : Bytes) (s : Nat) : (subkey P key tweak s).length = P.nw := by simp [subkey]

/-- The objects the constructors return. -/
theorem newCipher_cases {key tweak : Bytes} {c : Ciph} (h : newCipher key tweak = .ok c) :
    Good c.P ∧ key.length = 8 * c.P.nw ∧ tweak.length = 16 ∧ c.ks = subkey c.P key tweak := by
  have main (P : Prm) (hP : Good P) (h : newCipherP P key tweak = .ok c) :
      Good c.P ∧ key.length = 8 * c.P.nw ∧ tweak.length = 16 ∧ c.ks = subkey c.P key tweak := by
    rw [newCipherP] at h
    split at h
    · simp at h
    · split at h
      · simp at h
      · rw [← Res.ok.inj h]
        exact ⟨hP, by simp only; omega, by omega, rfl⟩
  rw [newCipher] at h
  split at h
  · exact main _ good256 h
  · split at h
    · exact main _ good512 h
    · split at h
      · exact main _ good1024 h
      · simp at h

theorem ldLE_append : ∀ (n m : Nat) (a b : Bytes), a.length = n * 8 → ldLE 64 8 (n + m) (a ++ b) = ldLE 64 8 n a ++ ldLE 64 8 m b
  | 0, m, a, b, h => by
    have : a = [] := List.length_eq_zero_iff.mp (by omega)
    subst this
    simp [ldLE]
  | n + 1, m, a, b, h => by
    rw [Nat.add_right_comm, ldLE, ldLE, List.take_append_of_le_length (by omega), List.drop_append_of_le_length (by omega),
      ldLE_append n m _ b (by simp; omega)]
    rfl

theorem stLE_append : ∀ (a b : List W), stLE 8 (a ++ b) = stLE 8 a ++ stLE 8 b
  | [], b => rfl
  | x :: a, b => by simp [stLE, stLE_append a b]

/-- C171. `NewCipher` accepts keys of 32, 64 and 128 bytes with a tweak of 16 bytes, and refuses everything else with an error. -/
theorem C171_new (key tweak : Bytes) :
    (((key.length = 32 ∨ key.length = 64 ∨ key.length = 128) ∧ tweak.length = 16) → ∃ c, newCipher key tweak = .ok c ∧ key.length = 8 * c.P.nw) ∧
    (¬((key.length = 32 ∨ key.length = 64 ∨ key.length = 128) ∧ tweak.length = 16) → newCipher key tweak = .err) := by
  constructor
  · rintro ⟨h | h | h, ht⟩
    · exact ⟨⟨p256, subkey p256 key tweak⟩, by simp [newCipher, newCipherP, h, ht, p256], h⟩
    · exact ⟨⟨p512, subkey p512 key tweak⟩, by simp [newCipher, newCipherP, h, ht, p512], h⟩
    · exact ⟨⟨p1024, subkey p1024 key tweak⟩, by simp [newCipher, newCipherP, h, ht, p1024], h⟩
  · intro h
    rw [newCipher, newCipherP, newCipherP, newCipherP]
    simp only [p256, p512, p1024]
    by_cases ht : tweak.length = 16
    · rw [if_neg (fun e => h ⟨.inl e, ht⟩), if_neg (fun e => h ⟨.inr (.inl e), ht⟩), if_neg (fun e => h ⟨.inr (.inr e), ht⟩)]
    · simp only [ne_eq, ht, not_false_eq_true, if_true, ite_self]

/-- C171. Decryption inverts encryption and encryption decryption, for every key and tweak and every block of the key's length, into any
destination that holds a block; what follows the block in the destination stays. -/
theorem C171_inverse {key tweak : Bytes} {c : Ciph} (hc : newCipher key tweak = .ok c) (dst src : Bytes) (hs : src.length = key.length)
    (hd : key.length ≤ dst.length) :
    (∃ ct, ct.length = key.length ∧ encrypt c dst src = .ok (ct ++ dst.drop key.length) ∧
      ∀ dst' : Bytes, key.length ≤ dst'.length → decrypt c dst' ct = .ok (src ++ dst'.drop key.length)) ∧
    (∃ pt, pt.length = key.length ∧ decrypt c dst src = .ok (pt ++ dst.drop key.length) ∧
      ∀ dst' : Bytes, key.length ≤ dst'.length → encrypt c dst' pt = .ok (src ++ dst'.drop key.length)) := by
  obtain ⟨hP, hk, _, _⟩ := newCipher_cases hc
  have hdiv (b : Bytes) (h : b.length = key.length) : b.length / 8 = c.P.nw := by omega
  have enc (dst b : Bytes) (h : b.length = key.length) (hd : key.length ≤ dst.length) :
      encrypt c dst b = .ok (stLE 8 (encWords c (ldLE 64 8 c.P.nw b)) ++ dst.drop key.length) := by
    have hl : (stLE 8 (encWords c (ldLE 64 8 c.P.nw b))).length = key.length := by
      rw [stLE_length, encWords_length hP (by simp)]; omega
    rw [encrypt, hdiv b h, if_neg (by omega)]
    simp only
    rw [List.take_of_length_le (by omega), hl]
  have dec (dst b : Bytes) (h : b.length = key.length) (hd : key.length ≤ dst.length) :
      decrypt c dst b = .ok (stLE 8 (decWords c (ldLE 64 8 c.P.nw b)) ++ dst.drop key.length) := by
    have hl : (stLE 8 (decWords c (ldLE 64 8 c.P.nw b))).length = key.length := by
      rw [stLE_length, decWords_length hP (by simp)]; omega
    rw [decrypt, hdiv b h, if_neg (by omega)]
    simp only
    rw [List.take_of_length_le (by omega), hl]
  have le : (encWords c (ldLE 64 8 c.P.nw src)).length = c.P.nw := encWords_length hP (by simp)
  have ld : (decWords c (ldLE 64 8 c.P.nw src)).length = c.P.nw := decWords_length hP (by simp)
  have back : stLE 8 (ldLE 64 8 c.P.nw src) = src := stLE_ldLE rfl _ _ (by omega)
  constructor
  · refine ⟨_, ?_, enc dst src hs hd, ?_⟩
    · rw [stLE_length, le]; omega
    · intro dst' hd'
      rw [dec dst' _ (by rw [stLE_length, le]; omega) hd']
      have := ldLE_stLE (w := 64) (sz := 8) rfl (encWords c (ldLE 64 8 c.P.nw src))
      rw [le] at this
      rw [this, decWords_encWords hP (by simp), back]
  · refine ⟨_, ?_, dec dst src hs hd, ?_⟩
    · rw [stLE_length, ld]; omega
    · intro dst' hd'
      rw [enc dst' _ (by rw [stLE_length, ld]; omega) hd']
      have := ldLE_stLE (w := 64) (sz := 8) rfl (decWords c (ldLE 64 8 c.P.nw src))
      rw [ld] at this
      rw [this, encWords_decWords hP (by simp), back]

/-- C171. Given a source longer than a block (a multiple of 8 bytes), `Encrypt` writes past the block: the rest of the plaintext, as it is,
goes into the destination.  `cipher.Block` asks for the first block only. -/
theorem C171_long_source_violated {key tweak : Bytes} {c : Ciph} (hc : newCipher key tweak = .ok c) (block rest : Bytes)
    (hb : block.length = key.length) (hr : rest.length % 8 = 0) (dst : Bytes) (hd : dst.length = block.length + rest.length) :
    ∃ ct, ct.length = key.length ∧ encrypt c dst (block ++ rest) = .ok (ct ++ rest) := by
  obtain ⟨hP, hk, _, hks⟩ := newCipher_cases hc
  have hl : (encWords c (ldLE 64 8 c.P.nw block)).length = c.P.nw := encWords_length hP (by simp)
  refine ⟨stLE 8 (encWords c (ldLE 64 8 c.P.nw block)), by rw [stLE_length, hl]; omega, ?_⟩
  have e : (block ++ rest).length / 8 = c.P.nw + rest.length / 8 := by rw [List.length_append]; omega
  rw [encrypt, e, if_neg (by omega), ldLE_append _ _ _ _ (by omega),
    encWords_append hP (by intro s; rw [hks, subkey_length]) (by simp), stLE_append, stLE_ldLE rfl _ rest (by omega)]
  simp only
  rw [List.take_of_length_le (by rw [List.length_append, stLE_length, hl]; omega),
    List.drop_of_length_le (by rw [List.length_append, stLE_length, hl]; omega), List.append_nil]

/-- C171. Given a destination that does not hold a block, `Encrypt` does not fail: it stores the part of the block that fits. -/
theorem C171_short_destination_violated {key tweak : Bytes} {c : Ciph} (hc : newCipher key tweak = .ok c) (src : Bytes)
    (hs : src.length = key.length) : encrypt c [] src = .ok [] := by
  obtain ⟨hP, hk, _, _⟩ := newCipher_cases hc
  rw [encrypt, if_neg (by omega)]
  simp

/-! The rounds of the code and of the paper -/

/-- The round of the paper on the words after the key addition. -/
def aux (nw : Nat) (e : Nat → W) (rot : List Nat) : List W :=
  let f (i : Nat) : W := if i % 2 = 0 then e i + e (i + 1) else (e i).rotateLeft (rot.getD (i / 2) 0) ^^^ (e (i - 1) + e i)
  (List.range nw).map fun i => f ((Spec.pi nw).getD i 0)

theorem round_plain (nw : Nat) (sk : Nat → Nat → W) (v : List W) (d : Nat) (h : d % 4 ≠ 0) :
    Spec.round nw sk v d = aux nw (fun i => v.getD i 0) ((Spec.R nw).getD (d % 8) []) := by
  simp only [Spec.round, if_neg h]
  rfl

theorem round_key (nw : Nat) (sk : Nat → Nat → W) (v : List W) (d : Nat) (h : d % 4 = 0) :
    Spec.round nw sk v d = aux nw (fun i => v.getD i 0 + sk (d / 4) i) ((Spec.R nw).getD (d % 8) []) := by
  simp only [Spec.round, if_pos h]
  rfl

theorem aux4 (l : List W) (rot : List Nat) (hl : l.length = 4) (hr : rot.length = 2) (k : Nat → W) :
    aux 4 (fun i => l.getD i 0) rot = permute (Spec.pi 4) (mix l rot) ∧
    aux 4 (fun i => l.getD i 0 + k i) rot = permute (Spec.pi 4) (mix (addKey ((List.range 4).map k) l) rot) ∧
    (List.range 4).map (fun i => l.getD i 0 + k i) = addKey ((List.range 4).map k) l := by
  match l, rot, hl, hr with
  | [_, _, _, _], [_, _], _, _ => exact ⟨rfl, rfl, rfl⟩

theorem aux8 (l : List W) (rot : List Nat) (hl : l.length = 8) (hr : rot.length = 4) (k : Nat → W) :
    aux 8 (fun i => l.getD i 0) rot = permute (Spec.pi 8) (mix l rot) ∧
    aux 8 (fun i => l.getD i 0 + k i) rot = permute (Spec.pi 8) (mix (addKey ((List.range 8).map k) l) rot) ∧
    (List.range 8).map (fun i => l.getD i 0 + k i) = addKey ((List.range 8).map k) l := by
  match l, rot, hl, hr with
  | [_, _, _, _, _, _, _, _], [_, _, _, _], _, _ => exact ⟨rfl, rfl, rfl⟩

theorem aux16 (l : List W) (rot : List Nat) (hl : l.length = 16) (hr : rot.length = 8) (k : Nat → W) :
    aux 16 (fun i => l.getD i 0) rot = permute (Spec.pi 16) (mix l rot) ∧
    aux 16 (fun i => l.getD i 0 + k i) rot = permute (Spec.pi 16) (mix (addKey ((List.range 16).map k) l) rot) ∧
    (List.range 16).map (fun i => l.getD i 0 + k i) = addKey ((List.range 16).map k) l := by
  match l, rot, hl, hr with
  | [_, _, _, _, _, _, _, _, _, _, _, _, _, _, _, _], [_, _, _, _, _, _, _, _], _, _ => exact ⟨rfl, rfl, rfl⟩

/-- What ties the numbers of a file to the tables of the paper. -/
structure Paper (P : Prm) : Prop extends Good P where
  pi : Spec.pi P.nw = P.g
  R : Spec.R P.nw = P.rot
  rounds : Spec.rounds P.nw = P.rounds
  aux : ∀ (l : List W) (rot : List Nat), l.length = P.nw → 2 * rot.length = P.nw → ∀ k : Nat → W,
    aux P.nw (fun i => l.getD i 0) rot = permute P.g (mix l rot) ∧
    aux P.nw (fun i => l.getD i 0 + k i) rot = permute P.g (mix (addKey ((List.range P.nw).map k) l) rot) ∧
    (List.range P.nw).map (fun i => l.getD i 0 + k i) = addKey ((List.range P.nw).map k) l

theorem paper256 : Paper p256 := ⟨good256, rfl, rfl, rfl, fun l rot hl hr k => aux4 l rot hl (by simp only [p256] at hr; omega) k⟩
theorem paper512 : Paper p512 := ⟨good512, rfl, rfl, rfl, fun l rot hl hr k => aux8 l rot hl (by simp only [p512] at hr; omega) k⟩
theorem paper1024 : Paper p1024 := ⟨good1024, rfl, rfl, rfl, fun l rot hl hr k => aux16 l rot hl (by simp only [p1024] at hr; omega) k⟩

section
variable {c : Ciph} (hP : Paper c.P) (sk : Nat → Nat → W) (hsk : ∀ s, c.ks s = (List.range c.P.nw).map (sk s))
include hP

theorem spec_plain {l : List W} (h : l.length = c.P.nw) (j r : Nat) (hr : r < 8) (h4 : r % 4 ≠ 0) :
    Spec.round c.P.nw sk l (8 * j + r) = gRound c.P r l := by
  rw [round_plain _ _ _ _ (by omega), show (8 * j + r) % 8 = r by omega, hP.R, gRound]
  exact (hP.aux l _ h (hP.rl r hr) (fun _ => 0)).1

include hsk

theorem spec_key {l : List W} (h : l.length = c.P.nw) (j r : Nat) (hr : r = 0 ∨ r = 4) :
    Spec.round c.P.nw sk l (8 * j + r) = gRound c.P r (addKey (c.ks (2 * j + r / 4)) l) := by
  rw [round_key _ _ _ _ (by omega), show (8 * j + r) % 8 = r by omega, show (8 * j + r) / 4 = 2 * j + r / 4 by omega, hP.R, gRound, hsk]
  exact (hP.aux l _ h (hP.rl r (by omega)) _).2.1

theorem spec_eight {l : List W} (h : l.length = c.P.nw) (j : Nat) :
    [8 * j, 8 * j + 1, 8 * j + 2, 8 * j + 3, 8 * j + 4, 8 * j + 5, 8 * j + 6, 8 * j + 7].foldl (Spec.round c.P.nw sk) l = encEight c l j := by
  have hG := hP.toGood
  have h0 : (addKey (c.ks (2 * j)) l).length = c.P.nw := by rw [addKey_length, h]
  have h1 := gRound_length hG 0 h0
  have h2 := gRound_length hG 1 h1
  have h3 := gRound_length hG 2 h2
  have h4 := gRound_length hG 3 h3
  have h5 := (addKey_length (c.ks (2 * j + 1)) _).trans h4
  have h6 := gRound_length hG 4 h5
  have h7 := gRound_length hG 5 h6
  have h8 := gRound_length hG 6 h7
  have e0 := spec_key hP sk hsk h j 0 (.inl rfl)
  have e4 := spec_key hP sk hsk h4 j 4 (.inr rfl)
  simp only [Nat.add_zero, Nat.reduceDiv] at e0 e4
  simp only [List.foldl_cons, List.foldl_nil, encEight]
  rw [e0, spec_plain hP sk h1 j 1 (by decide) (by decide), spec_plain hP sk h2 j 2 (by decide) (by decide),
    spec_plain hP sk h3 j 3 (by decide) (by decide), e4, spec_plain hP sk h6 j 5 (by decide) (by decide),
    spec_plain hP sk h7 j 6 (by decide) (by decide), spec_plain hP sk h8 j 7 (by decide) (by decide)]

omit hP hsk in
theorem range_eight (n : Nat) : List.range (8 * (n + 1)) =
    List.range (8 * n) ++ [8 * n, 8 * n + 1, 8 * n + 2, 8 * n + 3, 8 * n + 4, 8 * n + 5, 8 * n + 6, 8 * n + 7] := by
  rw [show 8 * (n + 1) = 8 * n + 1 + 1 + 1 + 1 + 1 + 1 + 1 + 1 by omega]
  simp only [List.range_succ, List.append_assoc, List.cons_append, List.nil_append]

theorem spec_rounds {l : List W} (h : l.length = c.P.nw) : ∀ n : Nat,
    (List.range (8 * n)).foldl (Spec.round c.P.nw sk) l = (List.range n).foldl (encEight c) l
  | 0 => rfl
  | n + 1 => by
    rw [range_eight, List.foldl_append, spec_rounds h n, List.range_succ, List.foldl_append]
    exact spec_eight hP sk hsk (foldl_length _ (fun l h j => encEight_length hP.toGood h j) _ _ h) n

theorem spec_words {l : List W} (h : l.length = c.P.nw) : Spec.words c.P.nw sk l = encWords c l := by
  have hr := hP.rEq
  have e : Spec.rounds c.P.nw = 8 * (c.P.rounds / 8) := by rw [hP.rounds]; omega
  have hl := foldl_length _ (fun l h j => encEight_length hP.toGood h j) (List.range (c.P.rounds / 8)) l h
  simp only [Spec.words]
  rw [e, spec_rounds hP sk hsk h, encWords, hsk, show 8 * (c.P.rounds / 8) / 4 = c.P.rounds / 4 by omega]
  exact (hP.aux _ (List.replicate (c.P.nw / 2) 0) hl (by simp; rcases hP.nwEq with h | h | h <;> omega) _).2.2

end

theorem subkey_eq (P : Prm) (hP : Good P) (key tweak : Bytes) (ht : tweak.length = 16) (s : Nat) :
    subkey P key tweak s = (List.range P.nw).map (Spec.subkey P.nw (ldLE 64 8 P.nw key) (BitVec.ofNat 64 (leN (tweak.take 8)))
      (BitVec.ofNat 64 (leN (tweak.drop 8))) s) := by
  have hnw := hP.nwEq
  rw [subkey, List.take_of_length_le (l := tweak.drop 8) (by simp; omega)]
  refine List.map_congr_left fun i hi => ?_
  have hi := List.mem_range.mp hi
  simp only [Spec.subkey]
  generalize hk : ldLE 64 8 P.nw key = k
  have hkl : k.length = P.nw := by rw [← hk]; simp
  generalize k.foldl (· ^^^ ·) 0x1bd11bdaa9fc1a22#64 = x
  generalize BitVec.ofNat 64 (leN (tweak.take 8)) = t0
  generalize BitVec.ofNat 64 (leN (tweak.drop 8)) = t1
  have hkx : (k ++ [x]).getD ((s + i) % (P.nw + 1)) 0 = if (s + i) % (P.nw + 1) = P.nw then x else k.getD ((s + i) % (P.nw + 1)) 0 := by
    have hj := Nat.mod_lt (s + i) (Nat.succ_pos P.nw)
    generalize (s + i) % (P.nw + 1) = j at *
    by_cases h : j = P.nw
    · rw [if_pos h, h, ← hkl]; simp
    · rw [if_neg h, List.getD_eq_getElem?_getD, List.getD_eq_getElem?_getD, List.getElem?_append_left (by omega)]
  have htt (m : Nat) (hm : m < 3) : [t0, t1, t0 ^^^ t1].getD m 0 = if m = 0 then t0 else if m = 1 then t1 else t0 ^^^ t1 := by
    match m, hm with
    | 0, _ => rfl
    | 1, _ => rfl
    | 2, _ => rfl
  rw [hkx, htt _ (Nat.mod_lt _ (by decide)), htt _ (Nat.mod_lt _ (by decide))]
  by_cases h3 : i = P.nw - 3
  · rw [if_pos h3, if_pos (show i + 3 = P.nw by omega), if_neg (show ¬i + 2 = P.nw by omega), if_neg (show ¬i + 1 = P.nw by omega)]; simp
  rw [if_neg h3, if_neg (show ¬i + 3 = P.nw by omega)]
  by_cases h2 : i = P.nw - 2
  · rw [if_pos h2, if_pos (show i + 2 = P.nw by omega), if_neg (show ¬i + 1 = P.nw by omega)]; simp
  rw [if_neg h2, if_neg (show ¬i + 2 = P.nw by omega)]
  by_cases h1 : i = P.nw - 1
  · rw [if_pos h1, if_pos (show i + 1 = P.nw by omega)]; simp
  rw [if_neg h1, if_neg (show ¬i + 1 = P.nw by omega)]; simp

theorem newCipher_paper {key tweak : Bytes} {c : Ciph} (h : newCipher key tweak = .ok c) : Paper c.P := by
  have main (P : Prm) (hP : Paper P) (h : newCipherP P key tweak = .ok c) : Paper c.P := by
    rw [newCipherP] at h
    split at h
    · simp at h
    · split at h
      · simp at h
      · rw [← Res.ok.inj h]
        exact hP
  rw [newCipher] at h
  split at h
  · exact main _ paper256 h
  · split at h
    · exact main _ paper512 h
    · split at h
      · exact main _ paper1024 h
      · simp at h

/-- C171. `Encrypt` computes Threefish, for every key, tweak and block. -/
theorem C171_threefish {key tweak : Bytes} {c : Ciph} (hc : newCipher key tweak = .ok c) (dst src : Bytes) (hs : src.length = key.length)
    (hd : key.length ≤ dst.length) : encrypt c dst src = .ok (Spec.encrypt (key.length / 8) key tweak src ++ dst.drop key.length) := by
  obtain ⟨hG, hk, ht, hks⟩ := newCipher_cases hc
  have hP := newCipher_paper hc
  have hl : (encWords c (ldLE 64 8 c.P.nw src)).length = c.P.nw := encWords_length hG (by simp)
  have e : key.length / 8 = c.P.nw := by omega
  rw [encrypt, hs, e, if_neg (by omega), Spec.encrypt]
  simp only
  rw [spec_words hP _ (fun s => by rw [hks]; exact subkey_eq _ hG _ _ ht s) (by simp),
    List.take_of_length_le (by rw [stLE_length, hl]; omega), stLE_length, hl, show c.P.nw * 8 = key.length by omega]

example : (newCipher (List.replicate 32 0) (List.replicate 16 0)).bind (fun c => encrypt c (List.replicate 33 7) (List.replicate 32 0)) =
    .ok (hx 32 0x84da2a1f8beaee947066ae3e3103f1ad536db1f4a1192495116b9f3ce6133fd8 ++ [7]) := by decide +kernel

example : (newCipher (List.replicate 64 0) (List.replicate 16 0)).bind (fun c => encrypt c (List.replicate 64 7) (List.replicate 64 0)) =
    .ok (hx 64 0xb1a2bbc6ef6025bc40eb3822161f36e375d1bb0aee3186fbd19e47c5d479947b7bc2f8586e35f0cff7e7f03084b0b7b1f1ab3961a580a3e97eb41ea14a6d7bbe) := by
  decide +kernel

example : (newCipher (List.replicate 128 0) (List.replicate 16 0)).bind (fun c => encrypt c (List.replicate 128 7) (List.replicate 128 0)) =
    .ok (hx 64 0xf05c3d0a3d05b304f785ddc7d1e036015c8aa76e2f217b06c6e1544c0bc1a90df0accb9473c24e0fd54fea68057f43329cb454761d6df5cf7b2e9b3614fbd5a2 ++
      hx 64 0x0b2e4760b40603540d82eabc5482c171c832afbe68406bc39500367a592943fa9a5b4a43286ca3c4cf46104b443143d560a4b230488311df4feef7e1dfe8391e) := by
  decide +kernel

end Verif.Cipher.Threefish
