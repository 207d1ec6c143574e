import Verif.Mode.StreamHelp
/-
OpenPGP CFB: the constructors leave the stream in the state of the CFB byte machine after the prefix.
-/
namespace Verif.Mode

variable (c : BlockCipher)

/-- The zero IV of OpenPGP CFB. -/
abbrev zeroIV : Bytes := List.replicate c.bs 0

theorem two_bytes (l : Bytes) (h : l.length = 2) : ∃ a b, l = [a, b] := by
  match l, h with
  | [a, b], _ => exact ⟨a, b, rfl⟩

theorem xorb_two (a b : Byte) (k : Bytes) (h : 2 ≤ k.length) :
    xorb [a, b] k = [a ^^^ k.getD 0 0, b ^^^ k.getD 1 0] := by
  match k, h with
  | x :: y :: k, _ => simp [xorb]

theorem set_two (a b : Byte) (k : Bytes) (h : 2 ≤ k.length) : (k.set 0 a).set 1 b = [a, b] ++ k.drop 2 := by
  match k, h with
  | x :: y :: k, _ => simp

theorem last_two (r : Bytes) (n : Nat) (h : r.length = n) (h2 : 2 ≤ n) :
    r.drop (n - 2) = [r.getD (n - 2) 0, r.getD (n - 1) 0] := by
  rw [List.drop_eq_getElem_cons (by omega), List.drop_eq_getElem_cons (by omega),
    List.drop_of_length_le (by omega)]
  simp [List.getD_eq_getElem?_getD]
  constructor
  · rw [List.getElem?_eq_getElem (by omega)]; rfl
  · rw [List.getElem?_eq_getElem (by omega)]
    simp only [Option.getD_some, show n - 2 + 1 = n - 1 by omega]

theorem ocfb_state (fre p0 : Bytes) (a b : Byte) (h2 : 2 ≤ c.bs) (hp : p0.length = c.bs)
    (hf : fre = c.E p0) : OcfbR c { fre := (fre.set 0 a).set 1 b, used := 2 } (cfbNorm c p0 [a, b]) := by
  have hE := c.lenE p0 hp
  subst hf
  rw [set_two _ _ _ (by omega)]
  unfold cfbNorm OcfbR CfbInv
  by_cases h : c.bs = 2
  · rw [if_pos (by simp [h])]
    refine ⟨⟨by simp [h], by simp; omega⟩, Or.inl ⟨by simp [h], rfl, ?_⟩⟩
    simp only
    rw [List.drop_of_length_le (by omega)]; rfl
  · rw [if_neg (by simp; omega)]
    exact ⟨⟨hp, by simp; omega⟩, Or.inr ⟨rfl, rfl⟩⟩

/-- The byte machine over a prefix of `bs + 2` bytes `p ++ [u, v]`. -/
theorem cfb_prefix_run (dec : Bool) (h2 : 2 ≤ c.bs) (p : Bytes) (u v : Byte) (hp : p.length = c.bs) :
    let o := xorb p (c.E (zeroIV c))
    let f := if dec then p else o
    let a := u ^^^ (c.E f).getD 0 0
    let b := v ^^^ (c.E f).getD 1 0
    bRun (cfbF c dec) (zeroIV c, []) (p ++ [u, v]) =
      (o ++ [a, b], cfbNorm c f (if dec then [u, v] else [a, b])) := by
  intro o f a b
  have hz : (zeroIV c).length = c.bs := by simp
  have hE := c.lenE _ hz
  have ho : o.length = c.bs := by simp [o, hE, hp]
  have hf : f.length = c.bs := by
    cases dec
    · exact ho
    · exact hp
  have hEf := c.lenE f hf
  rw [bRun_append, cfbF_seg c dec _ hz p [] (by simp; omega) (by simp [hp])]
  simp only [List.nil_append, List.length_nil, List.drop_zero]
  have e1 : cfbNorm c (zeroIV c) (if dec = true then p else xorb p (c.E (zeroIV c))) = (f, []) := by
    rw [show (if dec = true then p else xorb p (c.E (zeroIV c))) = f from rfl, cfbNorm, if_pos hf]
  rw [e1]
  rw [cfbF_seg c dec f hf [u, v] [] (by simp; omega) (by simpa using h2)]
  simp only [List.nil_append, List.length_nil, List.drop_zero]
  rw [xorb_two _ _ _ (by omega)]

theorem ocfbNewEnc_ok {randData : Bytes} {resync : Bool} {x : Ocfb} {pfx : Bytes}
    (h : ocfbNewEnc c randData resync = .ok (x, pfx)) :
    randData.length = c.bs ∧ 2 ≤ c.bs ∧
    pfx = (bRun (cfbF c false) (zeroIV c, []) (randData ++ randData.drop (c.bs - 2))).1 ∧
    pfx.length = c.bs + 2 ∧
    OcfbR c x (if resync then (pfx.drop 2, [])
      else (bRun (cfbF c false) (zeroIV c, []) (randData ++ randData.drop (c.bs - 2))).2) := by
  unfold ocfbNewEnc at h
  split at h
  · cases h
  · rename_i h1
    split at h
    · cases h
    · rename_i h2
      have h1' : randData.length = c.bs := by simpa using h1
      have h2' : 2 ≤ c.bs := by omega
      have hz : (zeroIV c).length = c.bs := by simp
      have hE := c.lenE _ hz
      have hp0 : (xorb randData (c.E (zeroIV c))).length = c.bs := by simp [hE, h1']
      rw [last_two randData c.bs h1' h2', cfb_prefix_run c false h2' randData _ _ h1']
      simp only [Bool.false_eq_true, if_false] at h ⊢
      split at h
      · rename_i hr
        obtain ⟨rfl, rfl⟩ := Prod.mk.inj (Res.ok.inj h)
        refine ⟨h1', h2', ?_, ?_, ?_⟩
        · rw [BitVec.xor_comm (randData.getD (c.bs - 2) 0), BitVec.xor_comm (randData.getD (c.bs - 1) 0)]
        · rw [List.length_append, hp0]; rfl
        · rw [if_pos hr]
          refine ⟨⟨by rw [List.length_drop, List.length_append, hp0]; rfl, c.bs_pos⟩, Or.inr ⟨rfl, rfl⟩⟩
      · rename_i hr
        obtain ⟨rfl, rfl⟩ := Prod.mk.inj (Res.ok.inj h)
        refine ⟨h1', h2', ?_, ?_, ?_⟩
        · rw [BitVec.xor_comm (randData.getD (c.bs - 2) 0), BitVec.xor_comm (randData.getD (c.bs - 1) 0)]
        · rw [List.length_append, hp0]; rfl
        · rw [if_neg hr, BitVec.xor_comm (randData.getD (c.bs - 2) 0), BitVec.xor_comm (randData.getD (c.bs - 1) 0)]
          exact ocfb_state c _ _ _ _ h2' hp0 rfl

theorem prefix_split (pfx : Bytes) (h : pfx.length = c.bs + 2) :
    pfx = pfx.take c.bs ++ [pfx.getD c.bs 0, pfx.getD (c.bs + 1) 0] := by
  have := last_two pfx (c.bs + 2) h (by omega)
  simp only [Nat.add_sub_cancel, show c.bs + 2 - 1 = c.bs + 1 by omega] at this
  rw [← this, List.take_append_drop]

/-- The decrypted prefix. -/
def ocfbPlain (pfx : Bytes) : Bytes := (bRun (cfbF c true) (zeroIV c, []) pfx).1

theorem ocfbNewDec_eq (pfx : Bytes) (resync : Bool) (h1 : pfx.length = c.bs + 2) (h2 : 2 ≤ c.bs) :
    (((ocfbPlain c pfx).take c.bs).drop (c.bs - 2) ≠ (ocfbPlain c pfx).drop c.bs →
      ocfbNewDec c pfx resync = .panic) ∧
    (((ocfbPlain c pfx).take c.bs).drop (c.bs - 2) = (ocfbPlain c pfx).drop c.bs →
      ∃ x, ocfbNewDec c pfx resync = .ok (x, ocfbPlain c pfx) ∧
        OcfbR c x (if resync then (pfx.drop 2, []) else (bRun (cfbF c true) (zeroIV c, []) pfx).2)) := by
  have hz : (zeroIV c).length = c.bs := by simp
  have hE := c.lenE _ hz
  have hp : (pfx.take c.bs).length = c.bs := by simp; omega
  have hpc : (xorb (pfx.take c.bs) (c.E (zeroIV c))).length = c.bs := by simp [hE]; omega
  have hs := prefix_split c pfx h1
  have hrun := cfb_prefix_run c true h2 (pfx.take c.bs) (pfx.getD c.bs 0) (pfx.getD (c.bs + 1) 0) hp
  simp only [if_true] at hrun
  rw [← hs] at hrun
  have hpl : ocfbPlain c pfx = xorb (pfx.take c.bs) (c.E (zeroIV c)) ++
      [pfx.getD c.bs 0 ^^^ (c.E (pfx.take c.bs)).getD 0 0, pfx.getD (c.bs + 1) 0 ^^^ (c.E (pfx.take c.bs)).getD 1 0] := by
    unfold ocfbPlain; rw [hrun]
  have ht : (ocfbPlain c pfx).take c.bs = xorb (pfx.take c.bs) (c.E (zeroIV c)) := by
    rw [hpl, List.take_left' hpc]
  have hd : (ocfbPlain c pfx).drop c.bs = [pfx.getD c.bs 0 ^^^ (c.E (pfx.take c.bs)).getD 0 0,
      pfx.getD (c.bs + 1) 0 ^^^ (c.E (pfx.take c.bs)).getD 1 0] := by
    rw [hpl, List.drop_left' hpc]
  rw [ht, hd, last_two _ c.bs hpc h2]
  unfold ocfbNewDec
  rw [if_neg (by omega), if_neg (by omega)]
  simp only
  constructor
  · intro hne
    rw [if_pos]
    by_cases e : (xorb (pfx.take c.bs) (c.E (zeroIV c))).getD (c.bs - 2) 0 =
        pfx.getD c.bs 0 ^^^ (c.E (pfx.take c.bs)).getD 0 0
    · right
      intro e'
      exact hne (by rw [e, e'])
    · exact Or.inl e
  · intro heq
    have e1 := (List.cons.inj heq).1
    have e2 := (List.cons.inj (List.cons.inj heq).2).1
    rw [if_neg (by rintro (h | h); exact h e1; exact h e2)]
    cases resync
    · refine ⟨_, by rw [hpl]; rfl, ?_⟩
      simp only [Bool.false_eq_true, if_false]
      rw [hrun]
      exact ocfb_state c _ _ _ _ h2 hp rfl
    · refine ⟨_, by rw [hpl]; rfl, ?_⟩
      simp only [if_true]
      exact ⟨⟨by simp [h1], by simp; omega⟩, Or.inr ⟨rfl, by simp⟩⟩

/-- The byte machine in decryption computes the CFB decryption equations. -/
theorem cfbF_dec_spec (v : Bytes) (hv : v.length = c.bs) (x : Bytes) :
    (bRun (cfbF c true) (v, []) x).1 = (Spec.cfbDec c.E v (chunks c.bs x)).flatten := by
  have hpos := c.bs_pos
  induction hn : x.length using Nat.strongRecOn generalizing x v with
  | ind n ih =>
    by_cases hx : x = []
    · subst hx; simp [Spec.cfbDec]
    · have hp : 0 < x.length := List.length_pos_iff.mpr hx
      rw [chunks_cons _ hpos _ hx, Spec.cfbDec, List.flatten_cons]
      conv => lhs; rw [← List.take_append_drop c.bs x]
      rw [bRun_append, cfbF_seg c true v hv _ [] (by simpa using hpos) (by simp; omega)]
      simp only [List.length_nil, List.drop_zero, List.nil_append, if_true]
      congr 1
      by_cases hfull : c.bs ≤ x.length
      · have hl : (x.take c.bs).length = c.bs := by simp; omega
        rw [cfbNorm, if_pos hl]
        exact ih _ (by simp; omega) _ hl _ rfl
      · have : x.drop c.bs = [] := List.drop_of_length_le (by omega)
        rw [this]; simp [Spec.cfbDec]

end Verif.Mode
