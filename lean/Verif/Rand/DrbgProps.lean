import Verif.Rand.DrbgLemmas
/-
C119 (Hash_DRBG), C120 (HMAC_DRBG), C121 (CTR_DRBG): for every history of calls the generator returns what SP 800-90A
prescribes.
-/
namespace Verif.Rand
open Verif.Pub Verif.Cipher Verif.Kdf

/-! ### the specification of a history -/

/-- Entropy, nonce and personalization string accepted by the constructors. -/
def ValidNew (entropy nonce pers : Bytes) : Prop :=
  0 < entropy.length ∧ entropy.length < 2 ^ 27 ∧ 0 < nonce.length ∧ nonce.length < 2 ^ 26 ∧ pers.length < 2 ^ 27

def ValidReseed (entropy additional : Bytes) : Prop :=
  0 < entropy.length ∧ entropy.length < 2 ^ 27 ∧ additional.length < 2 ^ 27

instance (e a : Bytes) : Decidable (ValidReseed e a) := by unfold ValidReseed; infer_instance

/-- One call, for a mechanism given by its reseed and generate functions. -/
def specStep {σ : Type} (rs : σ → Bytes → Bytes → σ) (gen : σ → Nat → Bytes → Option (σ × Bytes)) (s : σ) : Call → σ × Ret
  | .reseed e a => if ValidReseed e a then (rs s e a, .ok) else (s, .err)
  | .generate o a => match gen s o.length a with
    | some (s', b) => (s', .out b)
    | none => (s, .err)

theorem newOk_iff (e n p : Bytes) : newOk e n p = true ↔ ValidNew e n p := by
  unfold newOk ValidNew maxBytes
  rw [show (2 ^ 27 : Nat) >>> 1 = 2 ^ 26 by decide]
  simp only [Bool.and_eq_true, Bool.not_eq_true', Bool.or_eq_false_iff, decide_eq_false_iff_not, beq_eq_false_iff_ne]
  constructor
  · rintro ⟨⟨⟨a1, a2⟩, a3, a4⟩, a5⟩; refine ⟨?_, ?_, ?_, ?_, ?_⟩ <;> omega
  · rintro ⟨a1, a2, a3, a4, a5⟩; refine ⟨⟨⟨?_, ?_⟩, ?_, ?_⟩, ?_⟩ <;> omega

theorem reseedOk_iff (e a : Bytes) : reseedOk e a = true ↔ ValidReseed e a := by
  unfold reseedOk ValidReseed maxBytes
  simp only [Bool.and_eq_true, Bool.not_eq_true', Bool.or_eq_false_iff, decide_eq_false_iff_not]
  constructor
  · rintro ⟨⟨a1, a2⟩, a3⟩; refine ⟨?_, ?_, ?_⟩ <;> omega
  · rintro ⟨a1, a2, a3⟩; refine ⟨⟨?_, ?_⟩, ?_⟩ <;> omega

/-- Refinement: related states answer every history alike. -/
theorem run_refine {σ τ : Type} (R : σ → τ → Prop) (f : σ → Call → σ × Ret) (g : τ → Call → τ × Ret) (ok : Call → Prop)
    (h : ∀ s t c, R s t → ok c → (f s c).2 = (g t c).2 ∧ R (f s c).1 (g t c).1) : ∀ (cs : List Call) (s : σ) (t : τ), R s t →
    (∀ c ∈ cs, ok c) → run f s cs = run g t cs
  | [], _, _, _, _ => rfl
  | c :: cs, s, t, hr, hk => by
    obtain ⟨h1, h2⟩ := h s t c hr (hk c (by simp))
    rw [run, run, h1, run_refine R f g ok h cs _ _ h2 (fun c' hc' => hk c' (by simp [hc']))]

/-! ### C119 -/

/-- The state of the object and that of the standard. -/
structure HRel (H : HashFn) (gm : Bool) (d : HashDRBG) (s : Spec.HashSt) : Prop where
  n : d.seedlen = Spec.seedlen H
  lv : d.v.length = 111
  lc : d.c.length = 111
  v : d.v.take (Spec.seedlen H) = s.V
  c : d.c.take (Spec.seedlen H) = s.C
  ctr : d.ctr = s.ctr
  gm : d.isGm = gm

theorem hashFill_rel (H : HashFn) (d : HashDRBG) (m : Bytes) (hn : d.seedlen = Spec.seedlen H) (lv : d.v.length = 111)
    (lc : d.c.length = 111) : HRel H d.isGm (hashFill H d m) (Spec.hashSeed H m) := by
  have h1 := seedlen_le H
  have e1 : (d.v.take d.seedlen).length = Spec.seedlen H := by simp; omega
  have e2 : (d.c.take d.seedlen).length = Spec.seedlen H := by simp; omega
  have l : ∀ i, (Spec.hashDf H i (Spec.seedlen H)).length = Spec.seedlen H := fun i => outBytes_length _ _ _ H.pos (fun i => H.len _)
  unfold hashFill
  simp only
  rw [hashDF_eq _ _ _ (by omega), hashDF_eq _ _ _ (by omega), e1, e2, hn]
  refine ⟨rfl, ?_, ?_, ?_, ?_, rfl, rfl⟩
  · simp only [List.length_append, l, List.length_drop]; omega
  · simp only [List.length_append, l, List.length_drop]; omega
  · simp only [Spec.hashSeed]; rw [List.take_left' (l _)]
  · simp only [Spec.hashSeed]; rw [List.take_left' (l _), List.take_left' (l _)]

theorem hash_reseed (H : HashFn) (gm : Bool) (d : HashDRBG) (s : Spec.HashSt) (e a : Bytes) (h : HRel H gm d s) (hv : ValidReseed e a) :
    ∃ d', d.reseed H e a = .ok d' ∧ HRel H gm d' (if gm then Spec.gmReseed H s e a else Spec.hashReseed H s e a) := by
  unfold HashDRBG.reseed
  rw [(reseedOk_iff e a).mpr hv]
  simp only [Bool.true_eq_false, if_false]
  refine ⟨_, rfl, ?_⟩
  rw [h.gm, h.n, h.v]
  cases gm
  · have := hashFill_rel H d (1#8 :: s.V ++ e ++ a) h.n h.lv h.lc
    rw [h.gm] at this
    exact this
  · have := hashFill_rel H d (1#8 :: e ++ s.V ++ a) h.n h.lv h.lc
    rw [h.gm] at this
    exact this

theorem add_rel {R : Bytes} {n : Nat} (hn : n ≤ 111) (hR : R.length = 111) (A V : Bytes) (hA : n ≤ A.length) (hV : R.take n = V) :
    (drbgAdd R A n).length = 111 ∧ (drbgAdd R A n).take n = Spec.addMod n V (setBytes (A.take n)) := by
  rw [drbgAdd_eq _ _ _ (by omega) hA, take_add, hV]
  refine ⟨?_, rfl⟩
  simp; omega

/-- The first half of `Generate`: the object after the additional input. -/
theorem hash_add (H : HashFn) (hs : H.size ≤ 111) (gm : Bool) (d : HashDRBG) (s : Spec.HashSt) (a : Bytes) (h : HRel H gm d s) :
    HRel H gm { d with v := d.addV H a } { s with V := Spec.hashAdd H s.V a } := by
  have h1 := seedlen_le H
  have h2 := seedlen_ge H hs
  obtain ⟨n, lv, lc, v, c, ctr, g⟩ := h
  unfold Spec.hashAdd HashDRBG.addV
  by_cases ha : a = []
  · subst ha
    exact ⟨n, lv, lc, v, c, ctr, g⟩
  · have : a.length > 0 := List.length_pos_iff.mpr ha
    rw [if_pos this, if_neg ha, n, v]
    obtain ⟨p1, p2⟩ := padT_take (Spec.seedlen H) (H.f (2#8 :: s.V ++ a)) (by rw [H.len]; omega) h1
    obtain ⟨q1, q2⟩ := add_rel h1 lv _ _ p1 v
    rw [p2] at q2
    exact ⟨rfl, q1, lc, q2, c, ctr, g⟩

/-- The second half of `Generate`. -/
theorem hash_next (H : HashFn) (hs : H.size ≤ 111) (gm : Bool) (d : HashDRBG) (s : Spec.HashSt) (h : HRel H gm d s)
    (hc : s.ctr ≤ 2 ^ 48) :
    HRel H gm { d with v := d.nextV H, ctr := d.ctr + 1 } (Spec.hashNext H s s.V) := by
  unfold HashDRBG.nextV
  simp only
  have h1 := seedlen_le H
  have h2 := seedlen_ge H hs
  have h8 := seedlen_ge8 H
  obtain ⟨n, lv, lc, v, c, ctr, g⟩ := h
  rw [n, v, ctr]
  obtain ⟨p1, p2⟩ := padT_take (Spec.seedlen H) (H.f (3#8 :: s.V)) (by rw [H.len]; omega) h1
  obtain ⟨q1, q2⟩ := add_rel h1 lv _ _ p1 v
  obtain ⟨r1, r2⟩ := add_rel h1 q1 d.c _ (by omega) q2
  obtain ⟨t1, t2⟩ := padT_take (Spec.seedlen H) (hx 8 s.ctr) (by simp; omega) h1
  obtain ⟨u1, u2⟩ := add_rel h1 r1 _ _ t1 r2
  refine ⟨rfl, u1, lc, ?_, c, rfl, g⟩
  show List.take _ _ = Spec.addMod _ _ _
  rw [u2, addMod_addMod, addMod_addMod, t2, p2, c, setBytes_hx _ _ (by omega), Nat.add_assoc]

theorem hash_generate (H : HashFn) (hs : H.size ≤ 111) (d : HashDRBG) (s : Spec.HashSt) (o a : Bytes) (h : HRel H false d s) :
    match Spec.hashGenerate H s o.length a with
    | some (s', b) => ∃ d', d.generate H o a = .ok (d', b) ∧ HRel H false d' s'
    | none => d.generate H o a = .err := by
  unfold Spec.hashGenerate HashDRBG.generate
  rw [show Spec.interval = 2 ^ 48 from rfl]
  have hct := h.ctr
  by_cases hc : s.ctr > 2 ^ 48
  · rw [if_pos hc, if_pos (show d.ctr > 2 ^ 48 by omega)]
  · rw [if_neg hc, if_neg (show ¬ d.ctr > 2 ^ 48 by omega), if_neg (by rw [h.n]; have := seedlen_ge H hs; omega)]
    simp only
    have ha := hash_add H hs false d s a h
    have hnx := hash_next H hs false _ _ ha (by show s.ctr ≤ _; omega)
    have h1 := seedlen_le H
    have hout : HashDRBG.hashgen H { d with v := d.addV H a } o = Spec.hashgen H (Spec.hashAdd H s.V a) o.length := by
      generalize d.addV H a = v' at *
      have av := ha.v
      have al := ha.lv
      simp only at av al
      unfold HashDRBG.hashgen
      simp only
      rw [h.gm]
      simp only [Bool.false_eq_true, if_false]
      rw [h.n, av]
      have lV : (Spec.hashAdd H s.V a).length = Spec.seedlen H := by rw [← av]; simp; omega
      have lD : Spec.seedlen H ≤ (copyInto (List.replicate 111 0#8) (Spec.hashAdd H s.V a)).length := by
        simp [copyInto]; omega
      have tD : (copyInto (List.replicate 111 0#8) (Spec.hashAdd H s.V a)).take (Spec.seedlen H) =
          Spec.addMod (Spec.seedlen H) (Spec.hashAdd H s.V a) 0 := by
        conv_rhs => rw [← lV, addMod_zero]
        rw [copyInto, List.take_of_length_le (l := Spec.hashAdd H s.V a) (by simp; omega), List.take_left' lV]
      rw [hashgenLoop_fill H _ _ 0 _ _ _ _ _ lV lD tD, fill_eq _ H.size H.pos (fun i => H.len _) _ _ _ _ _ (by omega) (by omega)]
      simp [Spec.hashgen]
    rw [hout]
    exact ⟨_, rfl, hnx⟩

/-- C119 Hash_DRBG: the constructor accepts exactly the valid inputs, and every history of reseed and generate calls
returns the bytes of SP 800-90A, 10.1.1, whatever was in the output buffers. No call panics. -/
theorem C119_hash (H : HashFn) (hs : H.size ≤ 111) (entropy nonce pers : Bytes) :
    (¬ ValidNew entropy nonce pers → newHash H entropy nonce pers false = .err) ∧
    (ValidNew entropy nonce pers → ∃ d, newHash H entropy nonce pers false = .ok d ∧
      ∀ cs : List Call, run (step (HashDRBG.reseed H) (HashDRBG.generate H)) d cs =
        run (specStep (Spec.hashReseed H) (Spec.hashGenerate H)) (Spec.hashInstantiate H entropy nonce pers) cs) := by
  constructor
  · intro h
    unfold newHash
    rw [if_pos (by rw [← Bool.not_eq_true, newOk_iff]; exact h)]
  · intro h
    unfold newHash
    rw [if_neg (by rw [(newOk_iff _ _ _).mpr h]; decide)]
    refine ⟨_, rfl, fun cs => ?_⟩
    refine run_refine (HRel H false) _ _ (fun _ => True) ?_ cs _ _ ?_ (fun _ _ => trivial)
    · intro s t c hr _
      cases c with
      | reseed e a =>
        simp only [step, specStep]
        by_cases hv : ValidReseed e a
        · obtain ⟨d', e1, e2⟩ := hash_reseed H false s t e a hr hv
          rw [e1, if_pos hv]
          exact ⟨rfl, e2⟩
        · rw [if_neg hv]
          have : HashDRBG.reseed H s e a = .err := by
            unfold HashDRBG.reseed
            rw [if_pos (by rw [← Bool.not_eq_true, reseedOk_iff]; exact hv)]
          rw [this]; exact ⟨rfl, hr⟩
      | generate o a =>
        have := hash_generate H hs s t o a hr
        simp only [step, specStep]
        cases hg : Spec.hashGenerate H t o.length a with
        | none => rw [hg] at this; simp only at this; rw [this]; exact ⟨rfl, hr⟩
        | some p =>
          rw [hg] at this; simp only at this
          obtain ⟨d', e1, e2⟩ := this
          rw [e1]; exact ⟨rfl, e2⟩
    · obtain ⟨a, b, c, d, e, f, g⟩ := hashFill_rel H { v := List.replicate 111 0#8, c := List.replicate 111 0#8, seedlen := if H.size ≤ 32 then 55 else 111, ctr := 0, isGm := false }
        (entropy ++ nonce ++ pers) rfl (by simp) (by simp)
      exact ⟨a, b, c, d, e, f, rfl⟩

/-- `NewGMHash`, requests of at most one digest: the history of GM/T 0105. -/
theorem C119_gm_partial (H : HashFn) (hs : H.size ≤ 111) (entropy nonce pers : Bytes) (h : ValidNew entropy nonce pers) :
    ∃ d, newHash H entropy nonce pers true = .ok d ∧
      ∀ cs : List Call, (∀ o a, Call.generate o a ∈ cs → o.length ≤ H.size) →
        run (step (HashDRBG.reseed H) (HashDRBG.generate H)) d cs =
        run (specStep (Spec.gmReseed H) (Spec.gmGenerate H)) (Spec.hashInstantiate H entropy nonce pers) cs := by
  unfold newHash
  rw [if_neg (by rw [(newOk_iff _ _ _).mpr h]; decide)]
  refine ⟨_, rfl, fun cs hcs => ?_⟩
  refine run_refine (HRel H true) _ _ (fun c => ∀ o a, c = Call.generate o a → o.length ≤ H.size) ?_ cs _ _ ?_
    (fun c hc o a e => hcs o a (e ▸ hc))
  · intro s t c hr hk
    cases c with
    | reseed e a =>
      simp only [step, specStep]
      by_cases hv : ValidReseed e a
      · obtain ⟨d', e1, e2⟩ := hash_reseed H true s t e a hr hv
        rw [e1, if_pos hv]
        exact ⟨rfl, e2⟩
      · rw [if_neg hv]
        have : HashDRBG.reseed H s e a = .err := by
          unfold HashDRBG.reseed
          rw [if_pos (by rw [← Bool.not_eq_true, reseedOk_iff]; exact hv)]
        rw [this]; exact ⟨rfl, hr⟩
    | generate o a =>
      have ho := hk o a rfl
      simp only [step, specStep]
      unfold Spec.gmGenerate HashDRBG.generate
      rw [show Spec.interval = 2 ^ 48 from rfl]
      have hct := hr.ctr
      by_cases hc : t.ctr > 2 ^ 48
      · rw [if_pos (show s.ctr > 2 ^ 48 by omega), if_pos (Or.inl hc)]; exact ⟨rfl, hr⟩
      · rw [if_neg (show ¬ s.ctr > 2 ^ 48 by omega), if_neg (by rw [hr.n]; have := seedlen_ge H hs; omega), if_neg (by omega)]
        simp only
        have ha := hash_add H hs true s t a hr
        have hnx := hash_next H hs true _ _ ha (by show t.ctr ≤ _; omega)
        refine ⟨?_, hnx⟩
        have av := ha.v
        simp only at av
        unfold HashDRBG.hashgen
        simp only
        rw [hr.gm]
        simp only [if_true]
        rw [hr.n, av, copyInto_take _ _ (by rw [H.len]; exact ho)]
  · obtain ⟨a, b, c, d, e, f, g⟩ := hashFill_rel H { v := List.replicate 111 0#8, c := List.replicate 111 0#8, seedlen := if H.size ≤ 32 then 55 else 111, ctr := 0, isGm := false }
      (entropy ++ nonce ++ pers) rfl (by simp) (by simp)
    exact ⟨a, b, c, d, e, f, rfl⟩

/-- Longer requests to the GM generator succeed, but only the first digest is written: the rest of the caller's buffer is
returned as it was (zeros, if it is new). -/
theorem C119_gm_tail_violated (H : HashFn) (d : HashDRBG) (hg : d.isGm = true) (hc : d.ctr ≤ 2 ^ 48) (hn : H.size ≤ d.seedlen)
    (o a : Bytes) (ho : H.size < o.length) :
    ∃ d' b, d.generate H o a = .ok (d', b) ∧ b.length = o.length ∧ b.drop H.size = o.drop H.size := by
  unfold HashDRBG.generate
  rw [if_neg (by omega), if_neg (by omega)]
  refine ⟨_, _, rfl, ?_⟩
  unfold HashDRBG.hashgen
  simp only
  rw [hg]
  simp only [if_true]
  have hx := H.len (List.take d.seedlen (d.addV H a))
  generalize H.f _ = x at *
  have e : copyInto o x = x ++ o.drop H.size := by rw [copyInto, List.take_of_length_le (by omega), hx]
  rw [e]
  exact ⟨by simp; omega, List.drop_left' hx⟩

/-! ### C120 -/

theorem hmac_update (H : HashFn) (d : HmacDRBG) (x : Bytes) :
    d.update H x = { key := (Spec.hmacUpdate H x d.key d.v).1, v := (Spec.hmacUpdate H x d.key d.v).2, ctr := d.ctr } := by
  unfold HmacDRBG.update Spec.hmacUpdate
  simp only [List.append_assoc, List.singleton_append]
  by_cases h : x = []
  · subst h; rfl
  · rw [if_neg h, if_neg (by rw [List.length_eq_zero_iff]; exact h)]

theorem hmac_grow (H : HashFn) (K V : Bytes) (L : Nat) : grow (hmac H K) id L L V [] =
    (Spec.hmacIter H K V ((L + H.size - 1) / H.size), chunks (fun i => Spec.hmacIter H K V (i + 1)) ((L + H.size - 1) / H.size)) := by
  -- the first state may have any length: unroll once
  by_cases hL : L = 0
  · subst hL
    have : (0 + H.size - 1) / H.size = 0 := Nat.div_eq_of_lt (by have := H.pos; omega)
    rw [this]; rfl
  · obtain ⟨m, rfl⟩ : ∃ m, L = m + 1 := ⟨L - 1, by omega⟩
    have hB : 0 < (m + 1 + H.size - 1) / H.size := Nat.div_pos (by omega) H.pos
    rw [grow, if_pos (by simp), grow_eq (hmac H K) id (m + 1) H.size H.pos (fun v => v.length = H.size)
      (fun s _ => hmac_length _ _ _) (fun s hs => hs) _ 1 _ _ (hmac_length _ _ _) (by simp [hmac_length])
      (by have := ceil_le (m + 1) H.size H.pos; omega)]
    obtain ⟨B, hB'⟩ : ∃ B, (m + 1 + H.size - 1) / H.size = B + 1 := ⟨_, (Nat.sub_add_cancel hB).symm⟩
    rw [hB', Nat.add_sub_cancel, chunks_succ', List.nil_append, ← Function.iterate_succ_apply, hmacIter_eq]
    simp only [← Function.iterate_succ_apply, hmacIter_eq, id]
    rfl

/-- The state of the object and that of the standard. -/
def MRel (d : HmacDRBG) (s : Spec.KV) : Prop := d.key = s.K ∧ d.v = s.V ∧ d.ctr = s.ctr

theorem hmac_generate (H : HashFn) (d : HmacDRBG) (s : Spec.KV) (o a : Bytes) (h : MRel d s) :
    match Spec.hmacGenerate H s o.length a with
    | some (s', b) => ∃ d', d.generate H o a = .ok (d', b) ∧ MRel d' s'
    | none => d.generate H o a = .err := by
  obtain ⟨h1, h2, h3⟩ := h
  unfold Spec.hmacGenerate HmacDRBG.generate
  rw [h3, show Spec.interval = 2 ^ 48 from rfl]
  by_cases hc : s.ctr > 2 ^ 48
  · rw [if_pos hc, if_pos hc]
  · rw [if_neg hc, if_neg hc]
    have e0 : ∃ K V, (if a = [] then (s.K, s.V) else Spec.hmacUpdate H a s.K s.V) = (K, V) ∧
        (if a.length > 0 then d.update H a else d) = { key := K, v := V, ctr := s.ctr } := by
      by_cases ha : a = []
      · subst ha
        refine ⟨s.K, s.V, rfl, ?_⟩
        rw [← h1, ← h2, ← h3]; rfl
      · refine ⟨_, _, by rw [if_neg ha], ?_⟩
        rw [if_pos (List.length_pos_iff.mpr ha), hmac_update, h1, h2, h3]
    obtain ⟨K, V, e1, e2⟩ := e0
    simp only [e1, e2]
    rw [hmacLoop_grow, hmac_grow H K V o.length]
    simp only
    have hl := outBytes_length (fun i => Spec.hmacIter H K V (i + 1)) H.size o.length H.pos (fun i => hmac_length _ _ _)
    rw [copyInto_take o (chunks (fun i => Spec.hmacIter H K V (i + 1)) ((o.length + H.size - 1) / H.size))
      (by rw [chunks_length (fun i => Spec.hmacIter H K V (i + 1)) H.size (fun i => hmac_length _ _ _)]; exact ceil_mul _ _ H.pos)]
    refine ⟨_, rfl, ?_⟩
    rw [hmac_update]; exact ⟨rfl, rfl, rfl⟩

/-- C120 HMAC_DRBG: the constructor accepts exactly the valid inputs, and every history of reseed and generate calls
returns the bytes of SP 800-90A, 10.1.2. No call panics. -/
theorem C120_hmac (H : HashFn) (entropy nonce pers : Bytes) :
    (¬ ValidNew entropy nonce pers → newHmac H entropy nonce pers = .err) ∧
    (ValidNew entropy nonce pers → ∃ d, newHmac H entropy nonce pers = .ok d ∧
      ∀ cs : List Call, run (step (HmacDRBG.reseed H) (HmacDRBG.generate H)) d cs =
        run (specStep (Spec.hmacReseed H) (Spec.hmacGenerate H)) (Spec.hmacInstantiate H entropy nonce pers) cs) := by
  constructor
  · intro h
    unfold newHmac
    rw [if_pos (by rw [← Bool.not_eq_true, newOk_iff]; exact h)]
  · intro h
    unfold newHmac
    rw [if_neg (by rw [(newOk_iff _ _ _).mpr h]; decide)]
    refine ⟨_, rfl, fun cs => ?_⟩
    refine run_refine MRel _ _ (fun _ => True) ?_ cs _ _ ?_ (fun _ _ => trivial)
    · intro s t c hr _
      cases c with
      | reseed e a =>
        simp only [step, specStep]
        unfold HmacDRBG.reseed
        by_cases hv : ValidReseed e a
        · rw [if_neg (by rw [(reseedOk_iff _ _).mpr hv]; decide), if_pos hv]
          refine ⟨rfl, ?_⟩
          obtain ⟨h1, h2, h3⟩ := hr
          rw [hmac_update, h1, h2]; exact ⟨rfl, rfl, rfl⟩
        · rw [if_neg hv, if_pos (by rw [← Bool.not_eq_true, reseedOk_iff]; exact hv)]
          exact ⟨rfl, hr⟩
      | generate o a =>
        have := hmac_generate H s t o a hr
        simp only [step, specStep]
        cases hg : Spec.hmacGenerate H t o.length a with
        | none => rw [hg] at this; simp only at this; rw [this]; exact ⟨rfl, hr⟩
        | some p =>
          rw [hg] at this; simp only at this
          obtain ⟨d', e1, e2⟩ := this
          rw [e1]; exact ⟨rfl, e2⟩
    · rw [hmac_update]; exact ⟨rfl, rfl, rfl⟩

/-! ### C121 -/
open Spec (Fam)

/-- The state of the object and that of the standard. -/
def CRel (F : Fam) (d : CtrDRBG) (s : Spec.KV) : Prop :=
  d.key = s.K ∧ d.v = s.V ∧ d.ctr = s.ctr ∧ s.K.length = F.klen ∧ s.V.length = F.bs

/-- The derivation function of the code. -/
def codeDf (F : Fam) (x : Bytes) : Bytes := Spec.dfTail F (dfS F x F.seedlen) F.seedlen

/-- The derivation function of the standard. -/
def stdDf (F : Fam) (x : Bytes) : Bytes := Spec.blockDf F x F.seedlen

theorem ctr_grow (F : Fam) (K V : Bytes) (hV : V.length = F.bs) (L : Nat) :
    grow (fun v => drbgAdd1 v F.bs) (F.E K) L L V [] =
      (Spec.addMod F.bs V ((L + F.bs - 1) / F.bs), chunks (fun i => F.E K (Spec.addMod F.bs V (i + 1))) ((L + F.bs - 1) / F.bs)) := by
  have hp := F.bs_pos
  rw [grow_eq _ _ L F.bs (by omega) (fun v => v.length = F.bs)
    (fun s hs => by rw [drbgAdd1_eq _ _ (by omega)]; simp; omega) (fun s hs => F.lenE _ _ hs) _ 0 _ _ hV (by simp)
    (by have := ceil_le L F.bs (by omega); omega)]
  simp only [Nat.sub_zero, List.nil_append, add1_iter F.bs V hV]

theorem ctr_generate (F : Fam) (hkl : F.klen + F.bs ≤ 2 ^ 32) (d : CtrDRBG) (s : Spec.KV) (o a : Bytes) (h : CRel F d s) :
    match Spec.ctrGenerate F (codeDf F) s o.length a with
    | some (s', b) => ∃ d', d.generate F o a = .ok (d', b) ∧ CRel F d' s'
    | none => d.generate F o a = .err := by
  have hp := F.bs_pos
  obtain ⟨h1, h2, h3, h4, h5⟩ := h
  unfold Spec.ctrGenerate CtrDRBG.generate
  rw [h3, show Spec.interval = 2 ^ 48 from rfl]
  by_cases hc : s.ctr > 2 ^ 48
  · rw [if_pos hc, if_pos hc]
  · rw [if_neg hc, if_neg hc]
    have hd : ∃ D : Bytes, D.length = F.seedlen ∧ (if a = [] then List.replicate F.seedlen 0#8 else codeDf F a) = D ∧
        (if a.length > 0 then blockCipherDF F a (F.klen + F.bs) else List.replicate (F.klen + F.bs) 0#8) = D := by
      by_cases ha : a = []
      · subst ha; exact ⟨_, by simp, rfl, rfl⟩
      · refine ⟨_, dfTail_length F _ _, by rw [if_neg ha]; rfl, ?_⟩
        rw [if_pos (List.length_pos_iff.mpr ha), blockCipherDF_eq F _ _ hkl]; rfl
    obtain ⟨D, lD, d1, d2⟩ := hd
    have e0 : ∃ K V, K.length = F.klen ∧ V.length = F.bs ∧
        (if a = [] then (s.K, s.V) else Spec.ctrUpdate F D s.K s.V) = (K, V) ∧
        (if a.length > 0 then d.update F D else d) = { key := K, v := V, ctr := s.ctr } := by
      by_cases ha : a = []
      · subst ha
        refine ⟨s.K, s.V, h4, h5, rfl, ?_⟩
        rw [← h1, ← h2, ← h3]; rfl
      · obtain ⟨l1, l2⟩ := ctrUpdate_len F D s.K s.V lD
        refine ⟨_, _, l1, l2, by rw [if_neg ha], ?_⟩
        rw [if_pos (List.length_pos_iff.mpr ha), update_eq F d D (by rw [h1, h4]) (by rw [h2, h5]) lD, h1, h2, h3]
    obtain ⟨K, V, l1, l2, e1, e2⟩ := e0
    simp only [d1, d2, e1, e2]
    rw [ctrLoop_grow _ _ _ _ _ _ l2, ctr_grow F K V l2]
    simp only
    rw [copyInto_take o (chunks (fun i => F.E K (Spec.addMod F.bs V (i + 1))) ((o.length + F.bs - 1) / F.bs))
      (by rw [chunks_length (fun i => F.E K (Spec.addMod F.bs V (i + 1))) F.bs (fun i => F.lenE _ _ (by simp))]
          exact ceil_mul _ _ (by omega))]
    refine ⟨_, rfl, ?_⟩
    rw [update_eq F _ D l1 (by simp) lD]
    obtain ⟨m1, m2⟩ := ctrUpdate_len F D K (Spec.addMod F.bs V ((o.length + F.bs - 1) / F.bs)) lD
    exact ⟨rfl, rfl, rfl, m1, m2⟩

/-- C121 CTR_DRBG, every history: the constructor accepts exactly the valid inputs, and the calls return the bytes of
SP 800-90A, 10.2.1 computed with the code's own derivation function (`C121_df_violated` says where this is not that of the standard). -/
theorem C121_code (F : Fam) (hkl : F.klen + F.bs ≤ 2 ^ 32) (entropy nonce pers : Bytes) :
    (¬ ValidNew entropy nonce pers → newCtr F entropy nonce pers = .err) ∧
    (ValidNew entropy nonce pers → ∃ d, newCtr F entropy nonce pers = .ok d ∧
      ∀ cs : List Call, run (step (CtrDRBG.reseed F) (CtrDRBG.generate F)) d cs =
        run (specStep (Spec.ctrReseed F (codeDf F)) (Spec.ctrGenerate F (codeDf F)))
          (Spec.ctrInstantiate F (codeDf F) entropy nonce pers) cs) := by
  constructor
  · intro h
    unfold newCtr
    rw [if_pos (by rw [← Bool.not_eq_true, newOk_iff]; exact h)]
  · intro h
    unfold newCtr
    rw [if_neg (by rw [(newOk_iff _ _ _).mpr h]; decide)]
    refine ⟨_, rfl, fun cs => ?_⟩
    refine run_refine (CRel F) _ _ (fun _ => True) ?_ cs _ _ ?_ (fun _ _ => trivial)
    · intro s t c hr _
      cases c with
      | reseed e a =>
        simp only [step, specStep]
        unfold CtrDRBG.reseed
        by_cases hv : ValidReseed e a
        · rw [if_neg (by rw [(reseedOk_iff _ _).mpr hv]; decide), if_pos hv]
          refine ⟨rfl, ?_⟩
          obtain ⟨h1, h2, h3, h4, h5⟩ := hr
          rw [blockCipherDF_eq F _ _ hkl]
          have lD : (codeDf F (e ++ a)).length = F.seedlen := dfTail_length F _ _
          simp only
          rw [show Spec.dfTail F (dfS F (e ++ a) (F.klen + F.bs)) (F.klen + F.bs) = codeDf F (e ++ a) from rfl,
            update_eq F s _ (by rw [h1, h4]) (by rw [h2, h5]) lD, h1, h2]
          obtain ⟨l1, l2⟩ := ctrUpdate_len F _ t.K t.V lD
          exact ⟨rfl, rfl, rfl, l1, l2⟩
        · rw [if_neg hv, if_pos (by rw [← Bool.not_eq_true, reseedOk_iff]; exact hv)]
          exact ⟨rfl, hr⟩
      | generate o a =>
        have := ctr_generate F hkl s t o a hr
        simp only [step, specStep]
        cases hg : Spec.ctrGenerate F (codeDf F) t o.length a with
        | none => rw [hg] at this; simp only at this; rw [this]; exact ⟨rfl, hr⟩
        | some p =>
          rw [hg] at this; simp only at this
          obtain ⟨d', e1, e2⟩ := this
          rw [e1]; exact ⟨rfl, e2⟩
    · have lD : (codeDf F (entropy ++ nonce ++ pers)).length = F.seedlen := dfTail_length F _ _
      rw [blockCipherDF_eq F _ _ hkl, show Spec.dfTail F (dfS F (entropy ++ nonce ++ pers) (F.klen + F.bs)) (F.klen + F.bs) =
        codeDf F (entropy ++ nonce ++ pers) from rfl, update_eq F _ _ (by simp) (by simp) lD]
      obtain ⟨l1, l2⟩ := ctrUpdate_len F _ (List.replicate F.klen 0#8) (List.replicate F.bs 0#8) lD
      exact ⟨rfl, rfl, rfl, l1, l2⟩

/-- The two derivation functions agree unless `L ‖ N ‖ input ‖ 0x80` fills its last block. -/
theorem df_eq (F : Fam) (hkl : F.klen + F.bs < 2 ^ 32) (x : Bytes) (hlx : x.length < 2 ^ 32) (h : (x.length + 9) % F.bs ≠ 0) :
    codeDf F x = stdDf F x := by
  have hp := F.bs_pos
  unfold codeDf stdDf Spec.blockDf dfS Spec.dfString
  simp only
  rw [Nat.mod_eq_of_lt hlx, Nat.mod_eq_of_lt (show F.seedlen < 2 ^ 32 from hkl)]
  have hl : (hx 4 x.length ++ hx 4 F.seedlen ++ x ++ [128#8]).length = x.length + 9 := by simp; omega
  rw [hl]
  have := Nat.mod_lt (x.length + 9) (show 0 < F.bs by omega)
  rw [Nat.mod_eq_of_lt (show F.bs - (x.length + 9) % F.bs < F.bs by omega)]

/-- An input on which the derivation function is that of the standard. -/
def GoodLen (F : Fam) (x : Bytes) : Prop := x.length < 2 ^ 32 ∧ (x.length + 9) % F.bs ≠ 0

def GoodCall (F : Fam) : Call → Prop
  | .reseed e a => GoodLen F (e ++ a)
  | .generate _ a => a = [] ∨ GoodLen F a

/-- C121: the bytes of SP 800-90A for every history in which no seed material and no additional input has a length `l`
with `l + 9` a multiple of the block size. -/
theorem C121_ctr_partial (F : Fam) (hkl : F.klen + F.bs < 2 ^ 32) (entropy nonce pers : Bytes)
    (hv : ValidNew entropy nonce pers) (hg : GoodLen F (entropy ++ nonce ++ pers)) :
    ∃ d, newCtr F entropy nonce pers = .ok d ∧ ∀ cs : List Call, (∀ c ∈ cs, GoodCall F c) →
      run (step (CtrDRBG.reseed F) (CtrDRBG.generate F)) d cs =
        run (specStep (Spec.ctrReseed F (fun x => Spec.blockDf F x F.seedlen)) (Spec.ctrGenerate F (fun x => Spec.blockDf F x F.seedlen)))
          (Spec.ctrInstantiate F (fun x => Spec.blockDf F x F.seedlen) entropy nonce pers) cs := by
  obtain ⟨d, h1, h2⟩ := (C121_code F (by omega) entropy nonce pers).2 hv
  refine ⟨d, h1, fun cs hcs => ?_⟩
  rw [h2]
  have e := df_eq F hkl _ hg.1 hg.2
  have e0 : Spec.ctrInstantiate F (codeDf F) entropy nonce pers = Spec.ctrInstantiate F (stdDf F) entropy nonce pers := by
    unfold Spec.ctrInstantiate; rw [e]
  rw [e0]
  refine run_refine Eq _ _ (GoodCall F) ?_ cs _ _ rfl hcs
  rintro s t c rfl hc
  have key : specStep (Spec.ctrReseed F (codeDf F)) (Spec.ctrGenerate F (codeDf F)) s c =
      specStep (Spec.ctrReseed F (stdDf F)) (Spec.ctrGenerate F (stdDf F)) s c := by
    cases c with
    | reseed e a =>
      simp only [specStep, Spec.ctrReseed]
      rw [df_eq F hkl _ hc.1 hc.2]
    | generate o a =>
      simp only [specStep, Spec.ctrGenerate]
      rcases hc with rfl | hc
      · rfl
      · rw [df_eq F hkl _ hc.1 hc.2]
  rw [key]; exact ⟨rfl, rfl⟩

/-- Where the last block is full, the code appends a whole block of zeros (`bs - len % bs`, ctr.go:186). -/
theorem C121_df_violated (F : Fam) (x : Bytes) (n : Nat) (hlx : x.length < 2 ^ 32) (hn : n < 2 ^ 32)
    (h : (x.length + 9) % F.bs = 0) : dfS F x n = Spec.dfString F x n ++ List.replicate F.bs 0#8 := by
  have hp := F.bs_pos
  unfold dfS Spec.dfString
  simp only
  rw [Nat.mod_eq_of_lt hlx, Nat.mod_eq_of_lt hn]
  have hl : (hx 4 x.length ++ hx 4 n ++ x ++ [128#8]).length = x.length + 9 := by simp; omega
  rw [hl, h, Nat.sub_zero, Nat.mod_self, List.replicate_zero, List.append_nil]

/-- A family with 16-byte blocks, for examples: rotate by one byte and add key and a counter. -/
def toyF : Fam where
  klen := 16
  bs := 16
  E k b := (b.drop 1 ++ b.take 1).mapIdx (fun i x => x + k.getD i 0#8 + BitVec.ofNat 8 i)
  bs_pos := by decide
  lenE := by intro k b h; simp; omega

/-- With 7 bytes of seed material the first 4 bytes generated are not those of the standard. -/
theorem C121_output_violated : ∃ (F : Fam) (entropy nonce pers : Bytes) (d : CtrDRBG) (cs : List Call),
    F.klen = 16 ∧ F.bs = 16 ∧ ValidNew entropy nonce pers ∧ newCtr F entropy nonce pers = .ok d ∧
    run (step (CtrDRBG.reseed F) (CtrDRBG.generate F)) d cs ≠
        run (specStep (Spec.ctrReseed F (fun x => Spec.blockDf F x F.seedlen)) (Spec.ctrGenerate F (fun x => Spec.blockDf F x F.seedlen)))
          (Spec.ctrInstantiate F (fun x => Spec.blockDf F x F.seedlen) entropy nonce pers) cs := by
  obtain ⟨d, h1, h2⟩ := (C121_code toyF (by decide) [1#8, 2#8, 3#8, 4#8] [5#8, 6#8] [7#8]).2 (by unfold ValidNew; decide)
  refine ⟨toyF, [1#8, 2#8, 3#8, 4#8], [5#8, 6#8], [7#8], d, [.generate [0#8, 0#8, 0#8, 0#8] []], rfl, rfl,
    by unfold ValidNew; decide, h1, ?_⟩
  rw [h2]
  decide +kernel

theorem run_no_panic {σ : Type} (f : σ → Call → σ × Ret) (h : ∀ s c, (f s c).2 ≠ .panic) : ∀ (cs : List Call) (s : σ), Ret.panic ∉ run f s cs
  | [], _ => by simp [run]
  | c :: cs, s => by
    rw [run, List.mem_cons, not_or]
    exact ⟨fun e => h s c e.symm, run_no_panic f h cs _⟩

theorem specStep_no_panic {σ : Type} (rs : σ → Bytes → Bytes → σ) (gen : σ → Nat → Bytes → Option (σ × Bytes)) (s : σ) (c : Call) :
    (specStep rs gen s c).2 ≠ .panic := by
  cases c with
  | reseed e a => simp only [specStep]; split <;> simp
  | generate o a => simp only [specStep]; split <;> simp

/-- C121: no history makes the generator panic. -/
theorem C121_total (F : Fam) (hkl : F.klen + F.bs ≤ 2 ^ 32) (entropy nonce pers : Bytes) (d : CtrDRBG)
    (h : newCtr F entropy nonce pers = .ok d) (cs : List Call) :
    Ret.panic ∉ run (step (CtrDRBG.reseed F) (CtrDRBG.generate F)) d cs := by
  obtain ⟨h1, h2⟩ := C121_code F hkl entropy nonce pers
  by_cases hv : ValidNew entropy nonce pers
  · obtain ⟨d', e1, e2⟩ := h2 hv
    rw [h] at e1
    obtain rfl := Res.ok.inj e1
    rw [e2]
    exact run_no_panic _ (specStep_no_panic _ _) _ _
  · rw [h1 hv] at h; cases h

/-- SP 800-90A limits one request to 2^19 bits (65536 bytes; `MAX_BYTES_PER_GENERATE` in utils.go is not used): the
generators have no limit. -/
theorem C119_limit_violated (H : HashFn) (hs : H.size ≤ 111) (entropy nonce pers : Bytes) (h : ValidNew entropy nonce pers) (o : Bytes) :
    ∃ d d' b, newHash H entropy nonce pers false = .ok d ∧ d.generate H o [] = .ok (d', b) ∧ b.length = o.length := by
  obtain ⟨d, h1, h2⟩ := (C119_hash H hs entropy nonce pers).2 h
  have := h2 [.generate o []]
  have hi : ¬ (Spec.hashInstantiate H entropy nonce pers).ctr > Spec.interval := by
    show ¬ 1 > Spec.interval; decide
  generalize Spec.hashInstantiate H entropy nonce pers = s0 at this hi
  simp only [run, step, specStep, Spec.hashGenerate] at this
  rw [if_neg hi] at this
  simp only at this
  cases hg : d.generate H o [] with
  | ok p =>
    rw [hg] at this
    simp only [List.cons.injEq, Ret.out.injEq, and_true] at this
    refine ⟨d, p.1, p.2, h1, hg, ?_⟩
    rw [this]
    exact outBytes_length _ _ _ H.pos (fun i => H.len _)
  | err => rw [hg] at this; simp at this
  | panic => rw [hg] at this; simp at this
  | hang => rw [hg] at this; simp at this

/-- At the end of the reseed interval every request is refused until a reseed. -/
theorem C119_interval (H : HashFn) (d : HashDRBG) (h : d.ctr = 2 ^ 48 + 1) (o a : Bytes) : d.generate H o a = .err := by
  unfold HashDRBG.generate; rw [if_pos (by omega)]

/-! ### the hypotheses are met -/

example : ValidNew [1#8] [2#8] [] := by unfold ValidNew; decide
example : GoodLen toyF ([1#8] ++ [2#8] ++ []) := by unfold GoodLen toyF; decide
example : ∃ H : HashFn, H.size = 32 := ⟨⟨fun _ => List.replicate 32 0#8, 32, 64, by decide, fun _ => by simp⟩, rfl⟩
/-- A run of the toy generator with a reseed in between and a refused reseed. -/
example : ∃ d, newCtr toyF [1#8] [2#8] [] = .ok d ∧
    (run (step (CtrDRBG.reseed toyF) (CtrDRBG.generate toyF)) d
      [.generate [0#8] [], .reseed [9#8] [], .reseed [] [], .generate [0#8] [3#8]]).map (· == .err) = [false, false, true, false] := by
  obtain ⟨d, h1, h2⟩ := (C121_code toyF (by decide) [1#8] [2#8] []).2 (by unfold ValidNew; decide)
  refine ⟨d, h1, ?_⟩
  rw [h2]; decide +kernel

end Verif.Rand
