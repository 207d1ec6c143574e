import Verif.Hash.Bash
import Verif.Hash.BashSpec
namespace Verif.Hash.Bash
open Verif.Cipher

/-- The state holds `M` and nothing stands behind the block. -/
structure Good (F : List W → List W) (hs : Nat) (d : D) (M : Bytes) : Prop where
  hh : d.hs = hs
  s : d.b.s = absorb (192 - 2 * hs) (Spec.absorb1 F (192 - 2 * hs)) (Spec.init hs) M
  nx : d.b.nx = M.length % (192 - 2 * hs)
  x : d.b.x.take d.b.nx = tailOf (192 - 2 * hs) M
  xl : d.b.x.length = 192
  z : d.b.x.drop (192 - 2 * hs) = List.replicate (2 * hs) 0#8

theorem init_eq (hs : Nat) : ldBE 64 8 24 ((List.replicate 192 0#8).set 184 (BitVec.ofNat 8 hs)) = Spec.init hs := by
  rw [show BitVec.ofNat 8 hs = BitVec.ofNat 8 (hs % 256) by rw [← BitVec.toNat_inj]; simp, Spec.init]
  have h : hs % 256 < 256 := Nat.mod_lt _ (by decide)
  have : ∀ n < 256, ldBE 64 8 24 ((List.replicate 192 0#8).set 184 (BitVec.ofNat 8 n)) = List.replicate 23 (0 : BitVec 64) ++ [BitVec.ofNat 64 n <<< 56] := by
    decide +kernel
  exact this _ h

theorem good_reset (F : List W → List W) (hs : Nat) (h : hs ≤ 64) : Good F hs (reset hs) [] := by
  have l0 : (List.replicate 192 0#8).length = 192 := List.length_replicate
  refine ⟨rfl, ?_, ?_, ?_, l0, ?_⟩
  · rw [absorb_short _ _ _ _ (by simp; omega)]; exact init_eq hs
  · exact (Nat.zero_mod _).symm
  · rw [tailOf_short _ _ (by simp; omega)]; rfl
  · show (List.replicate 192 0#8).drop (192 - 2 * hs) = _
    rw [List.drop_replicate]; congr 1; omega

theorem write_good (F : List W → List W) (hs : Nat) (h0 : 0 < hs) (h64 : hs ≤ 64) (d : D) (M p : Bytes) (g : Good F hs d M)
    (hf : M.length % (192 - 2 * hs) + p.length ≤ 192 - 2 * hs) : ∃ d', write F d p = .ok d' ∧ Good F hs d' (M ++ p) := by
  have hb : d.bs = 192 - 2 * hs := by rw [D.bs, g.hh]
  have hlt : d.b.nx < 192 - 2 * hs := by rw [g.nx]; exact Nat.mod_lt _ (by omega)
  have hxl := g.xl
  have hnx := g.nx
  generalize hbs : 192 - 2 * hs = bs at *
  have hfit : d.b.nx + p.length ≤ bs := by omega
  have hT : (tailOf bs M ++ p).length = d.b.nx + p.length := by rw [List.length_append, tailOf_length, hnx]
  rw [write, hb, bufWrite]
  rcases Nat.lt_or_eq_of_le hfit with hlt2 | heq
  · rw [bufLoop, if_neg (by omega)]
    simp only [Res.bind]
    rw [if_neg (by omega)]
    refine ⟨_, rfl, g.hh, ?_, ?_, ?_, ?_, ?_⟩
    · simp only
      rw [hbs, absorb_split bs (by omega), absorb_short _ _ _ _ (by omega), g.s, hbs]
    · simp only
      rw [hbs, List.length_append, Nat.add_mod, ← hnx, Nat.mod_eq_of_lt (a := p.length) (by omega), Nat.mod_eq_of_lt (by omega)]
    · simp only
      rw [hbs, putAt_fit _ _ _ (by omega), g.x, hbs, List.take_left' hT, tailOf_append bs (by omega), tailOf_short bs (tailOf bs M ++ p) (by omega)]
    · simp only; rw [putAt_length _ _ _ (by omega), hxl]
    · simp only
      rw [hbs, putAt_fit _ _ _ (by omega), g.x, hbs, List.drop_append, hT, List.drop_eq_nil_of_le (by omega), List.nil_append, List.drop_drop,
        show d.b.nx + p.length + (bs - (d.b.nx + p.length)) = bs by omega]
      have := g.z
      rwa [hbs] at this
  · have hput : putAt d.b.x d.b.nx p = (tailOf bs M ++ p) ++ List.replicate (2 * hs) 0#8 := by
      have z := g.z
      rw [hbs] at z
      rw [putAt_fit _ _ _ (by omega), g.x, hbs, heq, z]
    have hpl : (putAt d.b.x d.b.nx p).length = 192 := by rw [putAt_length _ _ _ (by omega), hxl]
    have hstop : ∀ (b : Buf (List W)), b.nx = 0 → bufLoop bs (process F) p.length b [] = .ok (b, []) := by
      intro b hb0
      cases hp : p.length with
      | zero => omega
      | succ k => rw [bufLoop, if_neg (by simp [hb0]; omega)]
    rw [bufLoop, if_pos (by omega), if_neg (by omega)]
    simp only
    rw [List.drop_eq_nil_of_le (by omega), hstop _ rfl]
    simp only [Res.bind]
    rw [if_neg (by omega)]
    have hp0 : putAt (putAt d.b.x d.b.nx p) 0 [] = putAt d.b.x d.b.nx p := by simp [putAt, copyInto]
    have htl : (M ++ p).length % bs = 0 := by
      rw [List.length_append, Nat.add_mod, ← hnx]
      rcases Nat.eq_zero_or_pos d.b.nx with h | h
      · rw [h, show p.length = bs by omega]; simp
      · rw [Nat.mod_eq_of_lt (a := p.length) (by omega), heq, Nat.mod_self]
    refine ⟨_, rfl, g.hh, ?_, ?_, ?_, ?_, ?_⟩
    · simp only
      rw [hbs, absorb_split bs (by omega), absorb_one bs (by omega) _ _ _ (by omega), g.s, hbs, hput, process, Spec.absorb1,
        show 192 - bs = 2 * hs by omega]
    · simp only; rw [hbs, htl]; rfl
    · simp only
      rw [hbs, tailOf_append bs (by omega), tailOf_one bs (by omega) _ (by omega)]; rfl
    · simp only; rw [hp0, hpl]
    · simp only
      rw [hbs, hp0, hput, List.drop_left' (by omega)]

theorem sum_good (F : List W → List W) (hs : Nat) (h0 : 0 < hs) (h64 : hs ≤ 64) (d : D) (M p : Bytes) (g : Good F hs d M) :
    sum F d p = .ok (d, p ++ Spec.bash F hs M) := by
  have hb : d.bs = 192 - 2 * hs := by rw [D.bs, g.hh]
  have hlt : d.b.nx < 192 - 2 * hs := by rw [g.nx]; exact Nat.mod_lt _ (by omega)
  have hxl := g.xl
  have hnx := g.nx
  have hbs' : 192 - (192 - 2 * hs) = 2 * hs := by omega
  have hx := g.x
  have hz := g.z
  have hs' := g.s
  have hle : 0 < 192 - 2 * hs := by omega
  rw [sum, checkSum, if_neg (by omega), hb, Spec.bash, g.hh]
  simp only [Res.bind_ok]
  congr 6
  rw [Spec.pad]
  change _ = absorb _ _ _ _
  generalize hbs : 192 - 2 * hs = bs at *
  have hT : (tailOf bs M).length = d.b.nx := by rw [tailOf_length, hnx]
  have hone : (tailOf bs M ++ 0x40#8 :: List.replicate (bs - 1 - M.length % bs) 0#8).length = bs := by
    simp [tailOf_length]; omega
  rw [absorb_split bs hle, absorb_one bs hle _ _ _ hone, ← hs', process, Spec.absorb1, hbs']
  congr 3
  have key : putAt d.b.x d.b.nx (List.replicate bs 0#8) = tailOf bs M ++ List.replicate (192 - d.b.nx) 0#8 := by
    by_cases hc : 192 ≤ d.b.nx + bs
    · rw [putAt_zeros _ _ _ (by omega) (by omega), hx, hxl]
    · rw [putAt_fit _ _ _ (by simp; omega), hx, List.append_assoc, List.length_replicate,
        show d.b.nx + bs = bs + d.b.nx by omega, ← List.drop_drop, hz, List.drop_replicate, List.replicate_append_replicate]
      congr 2; omega
  rw [key, List.set_append_right _ _ (by omega), hT, Nat.sub_self, ← hnx, List.append_assoc]
  congr 1
  rw [show 192 - d.b.nx = (bs - 1 - d.b.nx + 2 * hs) + 1 by omega, List.replicate_succ, List.set_cons_zero, ← List.replicate_append_replicate]
  rfl

theorem run_good (F : List W → List W) (hs : Nat) (h0 : 0 < hs) (h64 : hs ≤ 64) (ops : List Op) :
    ∀ (d : D) (M : Bytes), Good F hs d M → Spec.fits (192 - 2 * hs) M ops →
      ∃ d', (obj F).run d ops = .ok (d', expected (Spec.bash F hs) M ops) := by
  induction ops with
  | nil => intro d M _ _; exact ⟨d, rfl⟩
  | cons op ops ih =>
    intro d M g hf
    cases op with
    | write x =>
      obtain ⟨d1, e, g1⟩ := write_good F hs h0 h64 d M x g hf.1
      obtain ⟨t, e2⟩ := ih d1 _ g1 hf.2
      exact ⟨t, by simp only [Obj.run, obj, e, Res.bind_ok]; exact e2⟩
    | sum p =>
      obtain ⟨t, e2⟩ := ih d M g hf
      refine ⟨t, ?_⟩
      have e := sum_good F hs h0 h64 d M p g
      simp only [Obj.run, show (obj F).sum = sum F from rfl, e, Res.bind_ok, e2]
      rfl
    | reset =>
      have : (obj F).reset d = reset hs := by simp [obj, g.hh]
      obtain ⟨t, e2⟩ := ih (reset hs) [] (good_reset F hs h64) hf
      exact ⟨t, by simp only [Obj.run, this]; exact e2⟩

end Verif.Hash.Bash
