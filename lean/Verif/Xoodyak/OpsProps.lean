import Verif.Xoodyak.Inverse
import Verif.Cipher.Common
/-!
# C152: any sequence of Cyclist operations
-/
namespace Verif.Xoodyak
open Verif

/-- The methods of the object, xoodyak.go:96-140, by the operation they implement. -/
def opX (x : Xk) : Spec.Op → Res (Xk × Bytes)
  | .absorb X => .ok (absorb x X, [])
  | .encrypt P => encrypt x P
  | .decrypt C => decrypt x C
  | .squeeze l => .ok (squeeze x l)
  | .squeezeKey l => squeezeKey x l
  | .ratchet => (ratchet x).bind fun x => .ok (x, [])

/-- Calls in turn on one object: their outputs. -/
def runX : Xk → List Spec.Op → Res (List Bytes)
  | _, [] => .ok []
  | x, o :: os => (opX x o).bind fun r => (runX r.1 os).bind fun rs => .ok (r.2 :: rs)

/-- No `Absorb` comes directly after a `Squeeze` or `SqueezeKey`, and there is no `Ratchet`; `sq`: a squeeze came last. -/
def Fine : Bool → List Spec.Op → Prop
  | _, [] => True
  | sq, .absorb _ :: os => sq = false ∧ Fine false os
  | _, .encrypt _ :: os => Fine false os
  | _, .decrypt _ :: os => Fine false os
  | _, .squeeze _ :: os => Fine true os
  | _, .squeezeKey _ :: os => Fine true os
  | _, .ratchet :: _ => False

/-- Uses of the operations that need a key. -/
def NeedsKey : Spec.Op → Bool
  | .absorb _ => false
  | .squeeze _ => false
  | _ => true

theorem run_rel (ops : List Spec.Op) : ∀ (sq : Bool) (x : Xk) (c : Spec.Cy), Rel x c → (sq = false → x.isUp = c.up) → 0 < c.rsq → 0 < c.rabs →
    c.rabs ≤ 46 → (c.keyed = true ∨ ∀ o ∈ ops, NeedsKey o = false) → Fine sq ops → runX x ops = .ok (Spec.run c ops) := by
  induction ops with
  | nil => intro _ _ _ _ _ _ _ _ _ _; rfl
  | cons o os ih =>
    intro sq x c r rp hq ha ha46 hk hf
    have hk' : c.keyed = true ∨ ∀ o ∈ os, NeedsKey o = false := hk.imp id fun h o ho => h o (List.mem_cons_of_mem _ ho)
    have kx : NeedsKey o = true → x.keyed = true := by
      intro hn
      rcases hk with h | h
      · rw [r.k, h]
      · have := h o (List.mem_cons_self ..)
        rw [this] at hn
        exact absurd hn (by simp)
    unfold runX Spec.run
    cases o with
    | absorb X =>
      have h := absorbAny_rel ⟨r, rp hf.1⟩ X c.rabs ha ha46 3
      have q := absorbBlocks_rates (Spec.split X c.rabs) c 3
      have e : absorb x X = absorbAny x X c.rabs 3 := by unfold absorb; rw [r.ra]
      show (Res.ok (absorb x X, ([] : Bytes))).bind _ = _
      rw [e]
      show (runX (absorbAny x X c.rabs 3) os).bind _ = _
      rw [ih false _ _ h.toRel (fun _ => h.p) (by show 0 < (Spec.absorbBlocks _ _ _).rsq; rw [q.2.1]; exact hq)
        (by show 0 < (Spec.absorbBlocks _ _ _).rabs; rw [q.1]; exact ha) (by show (Spec.absorbBlocks _ _ _).rabs ≤ 46; rw [q.1]; exact ha46)
        (by show (Spec.absorbBlocks _ _ _).keyed = true ∨ _; rw [q.2.2]; exact hk') hf.2]
      rfl
    | encrypt P =>
      obtain ⟨h1, h2⟩ := crypt_rel r P false
      have q := cryptBlocks_rates (Spec.split P 24) c 0x80 false
      show (encrypt x P).bind _ = _
      unfold encrypt
      rw [kx rfl, if_pos rfl]
      show (runX (crypt x P false).1 os).bind _ = _
      rw [ih false _ _ h2.toRel (fun _ => h2.p) (by show 0 < (Spec.cryptBlocks _ _ _ _).1.rsq; rw [q.2.1]; exact hq)
        (by show 0 < (Spec.cryptBlocks _ _ _ _).1.rabs; rw [q.1]; exact ha) (by show (Spec.cryptBlocks _ _ _ _).1.rabs ≤ 46; rw [q.1]; exact ha46)
        (by show (Spec.cryptBlocks _ _ _ _).1.keyed = true ∨ _; rw [q.2.2]; exact hk') hf]
      show Res.ok ((crypt x P false).2 :: _) = _
      rw [h1]
      rfl
    | decrypt P =>
      obtain ⟨h1, h2⟩ := crypt_rel r P true
      have q := cryptBlocks_rates (Spec.split P 24) c 0x80 true
      show (decrypt x P).bind _ = _
      unfold decrypt
      rw [kx rfl, if_pos rfl]
      show (runX (crypt x P true).1 os).bind _ = _
      rw [ih false _ _ h2.toRel (fun _ => h2.p) (by show 0 < (Spec.cryptBlocks _ _ _ _).1.rsq; rw [q.2.1]; exact hq)
        (by show 0 < (Spec.cryptBlocks _ _ _ _).1.rabs; rw [q.1]; exact ha) (by show (Spec.cryptBlocks _ _ _ _).1.rabs ≤ 46; rw [q.1]; exact ha46)
        (by show (Spec.cryptBlocks _ _ _ _).1.keyed = true ∨ _; rw [q.2.2]; exact hk') hf]
      show Res.ok ((crypt x P true).2 :: _) = _
      rw [h1]
      rfl
    | squeeze l =>
      obtain ⟨h1, h2⟩ := squeezeAny_rel r hq l 0x40
      have q := squeezeMore_rates (l - min l c.rsq) (Spec.goUp c (min l c.rsq) 0x40).1
      show (runX (squeezeAny x l 0x40).1 os).bind _ = _
      rw [ih true _ _ h2 (fun h => absurd h (by simp)) (by show 0 < (Spec.squeezeMore _ _).1.rsq; rw [q.2.1]; exact hq)
        (by show 0 < (Spec.squeezeMore _ _).1.rabs; rw [q.1]; exact ha) (by show (Spec.squeezeMore _ _).1.rabs ≤ 46; rw [q.1]; exact ha46)
        (by show (Spec.squeezeMore _ _).1.keyed = true ∨ _; rw [q.2.2]; exact hk') hf]
      show Res.ok ((squeezeAny x l 0x40).2 :: _) = _
      rw [h1]
      rfl
    | squeezeKey l =>
      obtain ⟨h1, h2⟩ := squeezeAny_rel r hq l 0x20
      have q := squeezeMore_rates (l - min l c.rsq) (Spec.goUp c (min l c.rsq) 0x20).1
      show (squeezeKey x l).bind _ = _
      unfold squeezeKey
      rw [kx rfl, if_pos rfl]
      show (runX (squeezeAny x l 0x20).1 os).bind _ = _
      rw [ih true _ _ h2 (fun h => absurd h (by simp)) (by show 0 < (Spec.squeezeMore _ _).1.rsq; rw [q.2.1]; exact hq)
        (by show 0 < (Spec.squeezeMore _ _).1.rabs; rw [q.1]; exact ha) (by show (Spec.squeezeMore _ _).1.rabs ≤ 46; rw [q.1]; exact ha46)
        (by show (Spec.squeezeMore _ _).1.keyed = true ∨ _; rw [q.2.2]; exact hk') hf]
      show Res.ok ((squeezeAny x l 0x20).2 :: _) = _
      rw [h1]
      rfl
    | ratchet => exact absurd hf (by simp [Fine])

/-- C152 (part: no `Absorb` directly after a squeeze, no `Ratchet`): a keyed object gives the outputs of the Cyclist mode for every
sequence of calls. -/
theorem C152_keyed_ops_partial (K id counter : Bytes) (hK : K ≠ []) (hl : K.length + id.length < 44) (ops : List Spec.Op) (hf : Fine false ops) :
    ((instantiate K id counter).bind fun x => runX x ops) = .ok (Spec.run (Spec.initKeyed K id counter) ops) := by
  rw [instantiate_keyed K id counter hK hl]
  have r := xKeyed_rel K id counter
  obtain ⟨a, b, c⟩ := initKeyed_rates K id counter
  exact run_rel ops false _ _ r.toRel (fun _ => r.p) (by rw [b]; omega) (by rw [a]; omega) (by rw [a]; omega) (Or.inl c) hf

/-- C152 (part, as above): an object without a key gives the outputs of the hash mode for every sequence of `Absorb` and
`Squeeze`. -/
theorem C152_hash_ops_partial (id counter : Bytes) (ops : List Spec.Op) (ho : ∀ o ∈ ops, NeedsKey o = false) (hf : Fine false ops) :
    ((instantiate [] id counter).bind fun x => runX x ops) = .ok (Spec.run Spec.initHash ops) :=
  run_rel ops false _ _ x0_rel.toRel (fun _ => rfl) (by decide) (by decide) (by decide) (Or.inr ho) hf

/-- C152: without a key, `Encrypt`, `Decrypt`, `SqueezeKey` and `Ratchet` panic. -/
theorem C152_keyless_panics (id counter : Bytes) (o : Spec.Op) (ho : NeedsKey o = true) :
    ((instantiate [] id counter).bind fun x => opX x o) = .panic := by
  cases o with
  | absorb _ => exact absurd ho (by simp [NeedsKey])
  | squeeze _ => exact absurd ho (by simp [NeedsKey])
  | encrypt _ => rfl
  | decrypt _ => rfl
  | squeezeKey _ => rfl
  | ratchet => rfl

/-- C152: a key and identifier of 44 bytes or more together panic. -/
theorem C152_key_too_long (K id counter : Bytes) (hK : K ≠ []) (hl : 44 ≤ K.length + id.length) : instantiate K id counter = .panic := by
  have : 0 < K.length := List.length_pos_iff.mpr hK
  unfold instantiate absorbKey
  simp only []
  rw [if_pos (by omega), if_pos hl]

/-- C152 violated: the output after `Ratchet` is not that of the mode: `Up` does not record the phase, so that the absorb in
`Ratchet` applies the permutation once more. -/
theorem C152_ratchet_violated :
    ∃ (K : Bytes), K.length = 16 ∧ ((instantiate K [] []).bind fun x => runX x [.ratchet, .squeeze 16]) ≠
      .ok (Spec.run (Spec.initKeyed K [] []) [.ratchet, .squeeze 16]) := by
  refine ⟨List.replicate 16 0, rfl, ?_⟩
  intro h
  have r := xKeyed_rel (List.replicate 16 0) [] []
  -- the mode, on the code's own `Up` and `Down`
  have u := up_rel r.toRel 16 0x10
  have d := down_rel u.1 (Spec.goUp (Spec.initKeyed (List.replicate 16 0) [] []) 16 0x10).2 0 (by rw [goUp_len _ _ _ (by omega)]; omega)
  have v := up_rel d.toRel 16 0x40
  have e : Spec.run (Spec.initKeyed (List.replicate 16 0) [] []) [.ratchet, .squeeze 16] =
      [[], (up (down (up (xKeyed (List.replicate 16 0) [] []) 0x10 16).1 (up (xKeyed (List.replicate 16 0) [] []) 0x10 16).2 0) 0x40 16).2] := by
    rw [u.2, v.2]
    have q := (initKeyed_rates (List.replicate 16 0) [] [])
    have s0 : ∀ c : Spec.Cy, c.rsq = 24 → ∀ cu, Spec.squeezeAny c 16 cu = Spec.goUp c 16 cu := by
      intro c hc cu
      unfold Spec.squeezeAny Spec.squeezeMore
      simp only []
      rw [hc]
      simp
    have a0 : ∀ c : Spec.Cy, c.up = true → ∀ X : Bytes, X.length ≤ 44 → Spec.absorbAny c X 44 0 = Spec.down c X 0 := by
      intro c hc X hX
      unfold Spec.absorbAny
      rw [split_small X 44 (by omega) hX]
      unfold Spec.absorbBlocks Spec.absorbBlocks
      rw [hc]; rfl
    simp only [Spec.run, Spec.op]
    rw [s0 _ q.2.1]
    have qa : (Spec.goUp (Spec.initKeyed (List.replicate 16 0) [] []) 16 0x10).1.rabs = 44 := q.1
    rw [qa, a0 _ rfl _ (by rw [goUp_len _ _ _ (by omega)]; omega),
      s0 (Spec.down (Spec.goUp (Spec.initKeyed (List.replicate 16 0) [] []) 16 0x10).1 (Spec.goUp (Spec.initKeyed (List.replicate 16 0) [] []) 16 0x10).2 0) q.2.1]
  rw [e] at h
  revert h
  decide +kernel

/-- C152 violated: the same for `Absorb` after `Squeeze`, without a key: the second of two hashes drawn from one object. -/
theorem C152_absorb_after_squeeze_violated :
    ∃ ops : List Spec.Op, (∀ o ∈ ops, NeedsKey o = false) ∧ ((instantiate [] [] []).bind fun x => runX x ops) ≠ .ok (Spec.run Spec.initHash ops) := by
  refine ⟨[.absorb [1], .squeeze 16, .absorb [2], .squeeze 16], by decide, ?_⟩
  intro h
  have a := absorbBlock_rel x0_rel [1] 3 (by decide)
  have u := up_rel a.toRel 16 0x40
  have d := down_rel u.1 [2] 3 (by decide)
  have v := up_rel d.toRel 16 0x40
  have e : Spec.run Spec.initHash [.absorb [1], .squeeze 16, .absorb [2], .squeeze 16] =
      [[], (up (absorbBlock x0 [1] 3) 0x40 16).2, [], (up (down (up (absorbBlock x0 [1] 3) 0x40 16).1 [2] 3) 0x40 16).2] := by
    rw [u.2, v.2]
    have s0 : ∀ c : Spec.Cy, c.rsq = 16 → ∀ cu, Spec.squeezeAny c 16 cu = Spec.goUp c 16 cu := by
      intro c hc cu
      unfold Spec.squeezeAny Spec.squeezeMore
      simp only []
      rw [hc]
      simp
    have a0 : ∀ c : Spec.Cy, c.up = true → c.rabs = 16 → ∀ b : Byte, Spec.absorbAny c [b] c.rabs 3 = Spec.down c [b] 3 := by
      intro c hc hr b
      unfold Spec.absorbAny
      rw [hr, split_small [b] 16 (by omega) (by simp)]
      unfold Spec.absorbBlocks Spec.absorbBlocks
      rw [hc]; rfl
    simp only [Spec.run, Spec.op]
    rw [a0 Spec.initHash rfl rfl 1, s0 (Spec.down Spec.initHash [1] 3) rfl,
      a0 (Spec.goUp (Spec.down Spec.initHash [1] 3) 16 0x40).1 rfl rfl 2, s0 _ rfl]
    rfl
  rw [e] at h
  revert h
  decide +kernel

/-- Non-vacuity: a key, and a sequence of calls with two squeezes. -/
example : Fine false [.absorb [1, 2], .squeeze 40, .encrypt [3], .absorb [], .decrypt [4, 5], .squeezeKey 16] ∧
    (List.replicate 16 (1 : Byte) ≠ []) := by
  refine ⟨?_, by simp⟩
  simp [Fine]

end Verif.Xoodyak
