import Verif.Mode.CfbLemmas2
/-
GOST R 34.13 CFB (continued) and GOST CFB with key meshing.
-/
namespace Verif.Mode

variable (c : BlockCipher)

theorem disjointRange_shift (d s l n : Nat) (h : DisjointRange d s l) (hn : n ≤ l) :
    DisjointRange (d + n) (s + n) (l - n) := by
  unfold DisjointRange at *; omega

theorem disjointRange_sod (d s l : Nat) (h : DisjointRange d s l) : SameOrDisjoint d s l := by
  unfold DisjointRange at *; unfold SameOrDisjoint; omega

/-- The aliasing condition under which G3413CFB is correct. -/
def G3413C (dec : Bool) (d s l : Nat) : Prop := if dec then DisjointRange d s l else SameOrDisjoint d s l

theorem g3413C_shift (dec : Bool) (d s l n : Nat) (h : G3413C dec d s l) (hn : n ≤ l) :
    G3413C dec (d + n) (s + n) (l - n) := by
  cases dec
  · exact sameOrDisjoint_shift _ _ _ _ h hn
  · exact disjointRange_shift _ _ _ _ h hn

theorem g3413C_sod (dec : Bool) (d s l : Nat) (h : G3413C dec d s l) : SameOrDisjoint d s l := by
  cases dec
  · exact h
  · exact disjointRange_sod _ _ _ h

theorem blkRun_read_step {τ : Type} (k : Nat) (hk : 0 < k) (f : τ → Bytes → Bytes × τ) (t : τ) (m : Mem)
    (s l : Nat) (hl : 0 < l) :
    blkRun k f t (m.read s l) = ((f t (m.read s (min l k))).1 ++
        (blkRun k f (f t (m.read s (min l k))).2 (m.read (s + min l k) (l - min l k))).1,
      (blkRun k f (f t (m.read s (min l k))).2 (m.read (s + min l k) (l - min l k))).2) := by
  have hne : m.read s l ≠ [] := by
    intro h0; have := congrArg List.length h0; simp at this; omega
  rw [blkRun_cons k hk f t _ hne, Mem.read_take, Mem.read_drop, Nat.min_comm k l]
  by_cases hkl : k ≤ l
  · rw [Nat.min_eq_right hkl]
  · rw [Nat.min_eq_left (by omega)]
    have e0 : m.read (s + k) (l - k) = [] := by rw [show l - k = 0 by omega]; rfl
    have e0' : m.read (s + l) (l - l) = [] := by rw [Nat.sub_self]; rfl
    rw [e0, e0']

/-- One call, any length. -/
theorem g3413cfb_okG (sg : Nat) (hsg : 0 < sg) (hle : sg ≤ c.bs) (dec : Bool) :
    StreamOKG (G3413C dec) (fun _ => True) (g3413cfbStep c sg dec)
      (fun l x r => l = 0 ∨ G3413R c sg x r) (blkRun sg (g3413cfbF c dec)) := by
  refine ⟨g3413C_shift dec, g3413C_sod dec, fun _ => rfl, ?_⟩
  intro e st t m d s l hR hl hC _
  have hR' : G3413R c sg st t := by rcases hR with h | h; omega; exact h
  obtain ⟨x', e1, e2, e3⟩ := g3413cfb_step c sg hsg hle dec e st t m d s l hR' hl hC
  refine ⟨_, _, x', _, e1, by omega, by omega, e2, ?_, trivial, blkRun_read_step sg hsg _ t m s l hl⟩
  by_cases h : sg ≤ l
  · exact Or.inr (e3 h)
  · left; omega

/-- Histories of segment-aligned calls. -/
theorem g3413cfb_okA (sg : Nat) (hsg : 0 < sg) (hle : sg ≤ c.bs) (dec : Bool) :
    StreamOKG (G3413C dec) (fun l => sg ∣ l) (g3413cfbStep c sg dec)
      (fun _ x r => G3413R c sg x r) (blkRun sg (g3413cfbF c dec)) := by
  refine ⟨g3413C_shift dec, g3413C_sod dec, fun _ => rfl, ?_⟩
  intro e st t m d s l hR hl hC hd
  have hle' : sg ≤ l := Nat.le_of_dvd hl hd
  obtain ⟨x', e1, e2, e3⟩ := g3413cfb_step c sg hsg hle dec e st t m d s l hR hl hC
  refine ⟨_, _, x', _, e1, by omega, by omega, e2, e3 hle', ?_, blkRun_read_step sg hsg _ t m s l hl⟩
  rw [Nat.min_eq_right hle']
  exact Nat.dvd_sub hd (Nat.dvd_refl _)

theorem g3413cfbF_spec (r : Bytes) (l : List Bytes) :
    (mapAcc (g3413cfbF c false) r l).1 = Spec.g3413cfb c.bs c.E r l := by
  induction l generalizing r with
  | nil => rfl
  | cons p l ih =>
    simp only [mapAcc, Spec.g3413cfb]
    rw [ih]
    simp [g3413cfbF]

theorem g3413cfb_roundtrip (sg : Nat) (hsg : 0 < sg) (hle : sg ≤ c.bs) (x t : Bytes) (ht : t.length = 2 * c.bs) :
    (blkRun sg (g3413cfbF c true) t (blkRun sg (g3413cfbF c false) t x).1).1 = x ∧
    ((blkRun sg (g3413cfbF c false) t x).2 =
        (blkRun sg (g3413cfbF c true) t (blkRun sg (g3413cfbF c false) t x).1).2
      ∧ (blkRun sg (g3413cfbF c false) t x).2.length = 2 * c.bs) := by
  refine blkRun_roundtrip_any sg hsg (g3413cfbF c false) (g3413cfbF c true)
    (fun a b => a = b ∧ a.length = 2 * c.bs) ?_ x t t ⟨rfl, ht⟩
  rintro t _ b ⟨rfl, ht⟩ hb
  have hE := c.lenE (t.take c.bs) (by simp; omega)
  have hc : xorb (xorb b (c.E (t.take c.bs))) (c.E (t.take c.bs)) = b := xorb_xorb_cancel_right _ _ (by omega)
  have hl : (xorb b (c.E (t.take c.bs))).length = b.length := by simp [hE]; omega
  refine ⟨by simpa [g3413cfbF] using hl, ?_, ?_, ?_⟩
  · simp only [g3413cfbF]; exact hc
  · simp only [g3413cfbF, if_true, Bool.false_eq_true, if_false, hc, hl]
  · simp only [g3413cfbF, Bool.false_eq_true, if_false, List.length_append, List.length_drop, hl]
    omega

/-! ### GOST CFB with key meshing -/

/-- The key schedule accepts every 32-byte key and yields an 8-byte block cipher. -/
def Key32 (newKey : Bytes → Option BlockCipher) : Prop :=
  ∀ k : Bytes, k.length = 32 → ∃ b, newKey k = some b ∧ b.bs = 8

/-- The register invariant. -/
structure GcfbI (newKey : Bytes → Option BlockCipher) (x : Gcfb) : Prop where
  eng : newKey x.key = some x.eng
  bs : x.eng.bs = 8
  fb : x.fb.length = 8
  iv : x.iv.length = 8
  key : x.key.length = 32

/-- The new key the code computes: ECB *encryption* of the constant. -/
def gcfbKey (newKey : Bytes → Option BlockCipher) (k : Bytes) : Bytes :=
  ((chunks 8 gcfbC).map (underE newKey k)).flatten

theorem gcfb_mesh_ok (newKey : Bytes → Option BlockCipher) (hk : Key32 newKey) (x : Gcfb) (hI : GcfbI newKey x) :
    ∃ nb : BlockCipher, nb.bs = 8 ∧ newKey (gcfbKey newKey x.key) = some nb ∧
      gcfbMesh newKey x = .ok (Gcfb.mk nb (nb.E x.iv) (gcfbKey newKey x.key) (nb.E x.iv) x.counter) ∧
      GcfbI newKey (Gcfb.mk nb (nb.E x.iv) (gcfbKey newKey x.key) (nb.E x.iv) x.counter) := by
  have hch : chunks 8 gcfbC = [gcfbC.take 8, (gcfbC.drop 8).take 8, (gcfbC.drop 16).take 8,
      (gcfbC.drop 24).take 8] := by decide
  have hkey : gcfbKey newKey x.key = x.eng.E (gcfbC.take 8) ++ x.eng.E ((gcfbC.drop 8).take 8)
      ++ x.eng.E ((gcfbC.drop 16).take 8) ++ x.eng.E ((gcfbC.drop 24).take 8) := by
    rw [gcfbKey, hch]
    simp [underE, hI.eng]
  have hl : ∀ b : Bytes, b.length = 8 → (x.eng.E b).length = 8 := fun b hb => by
    rw [x.eng.lenE b (by rw [hI.bs]; exact hb), hI.bs]
  have hkl : (gcfbKey newKey x.key).length = 32 := by
    rw [hkey]
    simp only [List.length_append]
    rw [hl _ (by decide), hl _ (by decide), hl _ (by decide), hl _ (by decide)]
  obtain ⟨nb, h1, h2⟩ := hk _ hkl
  have hiv : (nb.E x.iv).length = 8 := by rw [nb.lenE _ (by rw [h2, hI.iv]), h2]
  refine ⟨nb, h2, h1, ?_, ⟨h1, h2, hiv, hiv, hkl⟩⟩
  unfold gcfbMesh
  rw [hI.eng]
  simp only
  rw [if_neg (by simp [hI.bs]), ← hkey, h1]
  simp only
  rw [if_neg (by simp [hiv, h2]), copyInto_eq_left _ _ (by rw [hkl, hI.key])]

/-- The meshing as a total function. -/
def gcfbMeshF (newKey : Bytes → Option BlockCipher) (x : Gcfb) : Gcfb :=
  if x.counter > 0 ∧ x.counter % 1024 = 0 then
    match gcfbMesh newKey x with
    | .ok y => y
    | _ => x
  else x

def gcfbF (newKey : Bytes → Option BlockCipher) (dec : Bool) (x : Gcfb) (b : Bytes) : Bytes × Gcfb :=
  let y := gcfbMeshF newKey x
  let o := xorb b (y.eng.E y.fb)
  (o, { y with fb := if dec then b else o, counter := y.counter + 8 })

theorem gcfbMeshF_I (newKey : Bytes → Option BlockCipher) (hk : Key32 newKey) (x : Gcfb) (hI : GcfbI newKey x) :
    GcfbI newKey (gcfbMeshF newKey x) := by
  unfold gcfbMeshF
  split
  · obtain ⟨nb, _, _, e1, e2⟩ := gcfb_mesh_ok newKey hk x hI
    rw [e1]; exact e2
  · exact hI

theorem gcfbF_I (newKey : Bytes → Option BlockCipher) (hk : Key32 newKey) (dec : Bool) (x : Gcfb)
    (hI : GcfbI newKey x) (b : Bytes) (hb : b.length = 8) :
    (gcfbF newKey dec x b).1.length = 8 ∧ GcfbI newKey (gcfbF newKey dec x b).2 := by
  have hy := gcfbMeshF_I newKey hk x hI
  have hE : ((gcfbMeshF newKey x).eng.E (gcfbMeshF newKey x).fb).length = 8 := by
    rw [(gcfbMeshF newKey x).eng.lenE _ (by rw [hy.fb, hy.bs]), hy.bs]
  have ho : (xorb b ((gcfbMeshF newKey x).eng.E (gcfbMeshF newKey x).fb)).length = 8 := by simp [hb, hE]
  refine ⟨ho, ⟨hy.eng, hy.bs, ?_, hy.iv, hy.key⟩⟩
  cases dec
  · simpa [gcfbF] using ho
  · simpa [gcfbF] using hb

theorem gcfb_okG (newKey : Bytes → Option BlockCipher) (hk : Key32 newKey) (dec : Bool) :
    StreamOKG SameOrDisjoint (fun l => 8 ∣ l) (gcfbStep newKey 8 dec)
      (fun _ x t => x = t ∧ GcfbI newKey t) (blkRun 8 (gcfbF newKey dec)) := by
  refine ⟨sameOrDisjoint_shift, fun _ _ _ h => h, fun _ => rfl, ?_⟩
  rintro e st _ m d s l ⟨rfl, hI⟩ hl hC hd
  have hle : 8 ≤ l := Nat.le_of_dvd hl hd
  obtain ⟨h1, h2⟩ := gcfbF_I newKey hk dec st hI (m.read s 8) (by simp)
  have hrun := blkRun_read_step 8 (by decide) (gcfbF newKey dec) st m s l hl
  rw [Nat.min_eq_right hle] at hrun
  refine ⟨8, _, _, _, ?_, by decide, hle, h1, ⟨rfl, h2⟩, Nat.dvd_sub hd (Nat.dvd_refl _), hrun⟩
  unfold gcfbStep
  by_cases hcnd : st.counter > 0 ∧ st.counter % 1024 = 0
  · obtain ⟨nb, _, _, e1, _⟩ := gcfb_mesh_ok newKey hk st hI
    simp only [if_pos hcnd, e1, Res.bind_ok]
    rw [if_neg (by omega)]
    simp only [gcfbF, gcfbMeshF, if_pos hcnd, e1]
  · simp only [if_neg hcnd, Res.bind_ok]
    rw [if_neg (by omega)]
    simp only [gcfbF, gcfbMeshF, if_neg hcnd]

theorem gcfb_roundtrip (newKey : Bytes → Option BlockCipher) (hk : Key32 newKey) (x : Bytes) (hx : 8 ∣ x.length)
    (t : Gcfb) (hI : GcfbI newKey t) :
    (blkRun 8 (gcfbF newKey true) t (blkRun 8 (gcfbF newKey false) t x).1).1 = x := by
  refine blkRun_roundtrip 8 (by decide) (gcfbF newKey false) (gcfbF newKey true) (GcfbI newKey)
    (fun t b hI hb => gcfbF_I newKey hk false t hI b hb) (fun a b => a = b ∧ GcfbI newKey a) ?_ x hx t t hI
    ⟨rfl, hI⟩
  rintro t _ b ⟨rfl, hI⟩ hb
  have hy := gcfbMeshF_I newKey hk t hI
  have hE : ((gcfbMeshF newKey t).eng.E (gcfbMeshF newKey t).fb).length = 8 := by
    rw [(gcfbMeshF newKey t).eng.lenE _ (by rw [hy.fb, hy.bs]), hy.bs]
  refine ⟨?_, ?_, (gcfbF_I newKey hk false t hI b hb).2⟩
  · simp only [gcfbF]
    exact xorb_xorb_cancel_right _ _ (by omega)
  · simp [gcfbF]

theorem gcfb_dec_len (newKey : Bytes → Option BlockCipher) (hk : Key32 newKey) (x : Bytes) (hx : 8 ∣ x.length)
    (t : Gcfb) (hI : GcfbI newKey t) (dec : Bool) :
    (blkRun 8 (gcfbF newKey dec) t x).1.length = x.length ∧ GcfbI newKey (blkRun 8 (gcfbF newKey dec) t x).2 := by
  have h1 := chunks_all_len 8 (by decide) x hx
  obtain ⟨h2, h3⟩ := mapAcc_all_len 8 (gcfbF newKey dec) (GcfbI newKey)
    (fun t b hI hb => gcfbF_I newKey hk dec t hI b hb) _ h1 t hI
  refine ⟨?_, h3⟩
  have e1 := flatten_length_of_all 8 _ h1
  have e2 := flatten_length_of_all 8 _ h2
  rw [chunks_flatten 8 (by decide)] at e1
  simp only [blkRun]
  rw [e2, e1, mapAcc_length]

/-- Within a section no meshing happens. -/
theorem gcfb_section (newKey : Bytes → Option BlockCipher) (l : List Bytes) (y : Gcfb) (j : Nat)
    (h1 : y.counter = 0 ∨ 1024 * j < y.counter) (h2 : y.counter + 8 * l.length ≤ 1024 * (j + 1))
    (h3 : y.counter = 0 → j = 0) :
    ∃ z, mapAcc (gcfbF newKey false) y l = (Spec.cfb y.eng.E y.fb l, z) ∧ z.eng = y.eng ∧ z.key = y.key ∧
      z.iv = y.iv ∧ z.counter = y.counter + 8 * l.length := by
  induction l generalizing y with
  | nil => exact ⟨y, rfl, rfl, rfl, rfl, rfl⟩
  | cons b l ih =>
    simp only [List.length_cons] at h2
    have hm : gcfbMeshF newKey y = y := by
      unfold gcfbMeshF
      rw [if_neg]
      rintro ⟨ha, hb⟩
      rcases h1 with h | h
      · omega
      · have := Nat.div_add_mod y.counter 1024
        have h5 : y.counter = 1024 * (y.counter / 1024) := by omega
        have h6 : j < y.counter / 1024 := by omega
        omega
    have hf : gcfbF newKey false y b = (xorb b (y.eng.E y.fb),
        { y with fb := xorb b (y.eng.E y.fb), counter := y.counter + 8 }) := by
      simp [gcfbF, hm]
    obtain ⟨z, e1, e2, e3, e4, e5⟩ := ih { y with fb := xorb b (y.eng.E y.fb), counter := y.counter + 8 }
      (by simp only; omega) (by simp only; omega) (by simp only; omega)
    refine ⟨z, ?_, e2, e3, e4, ?_⟩
    · simp only [mapAcc, hf, Spec.cfb, e1]
    · rw [e5]; simp only [List.length_cons]; omega

theorem chunks_length_mul (k : Nat) (hk : 0 < k) (n : Nat) (x : Bytes) (h : x.length = n * k) :
    (chunks k x).length = n := by
  have h1 := chunks_all_len k hk x (by rw [h]; exact Nat.dvd_mul_left _ _)
  have h2 := flatten_length_of_all k _ h1
  rw [chunks_flatten k hk, h] at h2
  rw [Nat.mul_comm k] at h2
  exact (Nat.eq_of_mul_eq_mul_right hk h2).symm

/-- The whole computation, section by section. -/
theorem gcfb_sections (newKey : Bytes → Option BlockCipher) (hk : Key32 newKey) (x : Bytes) (hx : 8 ∣ x.length)
    (t : Gcfb) (hI : GcfbI newKey t) (j : Nat) (hc : t.counter = 1024 * j) (hfb : j = 0 → t.fb = t.iv) :
    (blkRun 8 (gcfbF newKey false) t x).1 = (Spec.meshCfb (underE newKey) 8 (gcfbKey newKey)
      (fun k' iv _ => underE newKey k' iv) (if j = 0 then t.key else gcfbKey newKey t.key)
      (if j = 0 then t.iv else underE newKey (gcfbKey newKey t.key) t.iv) (chunks 1024 x)).flatten := by
  induction hn : x.length using Nat.strongRecOn generalizing x t j with
  | ind n ih =>
    by_cases hx0 : x = []
    · subst hx0; simp [Spec.meshCfb]
    · have hp : 0 < x.length := List.length_pos_iff.mpr hx0
      obtain ⟨q, hq⟩ := hx
      -- the meshed state y
      obtain ⟨y, hy, hyI, hyk, hyiv, hyfb, hyc⟩ : ∃ y, gcfbMeshF newKey t = y ∧ GcfbI newKey y ∧
          y.key = (if j = 0 then t.key else gcfbKey newKey t.key) ∧
          y.iv = (if j = 0 then t.iv else underE newKey (gcfbKey newKey t.key) t.iv) ∧ y.fb = y.iv ∧
          y.counter = t.counter := by
        refine ⟨_, rfl, gcfbMeshF_I newKey hk t hI, ?_⟩
        unfold gcfbMeshF
        by_cases hj : j = 0
        · subst hj
          rw [if_neg (by omega)]
          exact ⟨rfl, rfl, hfb rfl, rfl⟩
        · rw [if_pos (by omega), if_neg hj, if_neg hj]
          obtain ⟨nb, _, e0, e1, _⟩ := gcfb_mesh_ok newKey hk t hI
          rw [e1]
          refine ⟨rfl, ?_, rfl, rfl⟩
          simp [underE, e0]
      rw [← hyk, ← hyiv]
      -- split off one section
      have hsec : 8 ∣ (x.take 1024).length := by
        rw [List.length_take]
        by_cases h : 1024 ≤ x.length
        · rw [Nat.min_eq_left h]; exact ⟨128, rfl⟩
        · rw [Nat.min_eq_right (by omega)]; exact ⟨q, hq⟩
      have hd : 8 ∣ (x.drop 1024).length := by
        rw [List.length_drop]; exact Nat.dvd_sub ⟨q, hq⟩ ⟨128, rfl⟩
      have htk0 : x.take 1024 ≠ [] := by
        intro h; have := congrArg List.length h
        simp only [List.length_take, List.length_nil] at this; omega
      rw [chunks_cons 1024 (by decide) x hx0]
      simp only [Spec.meshCfb, List.flatten_cons]
      conv => lhs; rw [← List.take_append_drop 1024 x]
      rw [blkRun_append 8 (by decide) _ _ _ _ hsec]
      -- the first section
      obtain ⟨p, hpq⟩ := hsec
      have hcl := chunks_length_mul 8 (by decide) p (x.take 1024) (by omega)
      have hple : 8 * p ≤ 1024 := by rw [← hpq, List.length_take]; omega
      have hrun : ∃ z, mapAcc (gcfbF newKey false) t (chunks 8 (x.take 1024)) =
          (Spec.cfb y.eng.E y.fb (chunks 8 (x.take 1024)), z) ∧ z.eng = y.eng ∧ z.key = y.key ∧ z.iv = y.iv ∧
          z.counter = y.counter + 8 * p := by
        rw [← hcl]
        rw [chunks_cons 8 (by decide) _ htk0] at hcl ⊢
        generalize (x.take 1024).take 8 = b0 at *
        generalize chunks 8 ((x.take 1024).drop 8) = rest at *
        simp only [List.length_cons] at hcl ⊢
        have hf : gcfbF newKey false t b0 = (xorb b0 (y.eng.E y.fb),
            { y with fb := xorb b0 (y.eng.E y.fb), counter := y.counter + 8 }) := by
          simp [gcfbF, hy]
        obtain ⟨z, e1, e2, e3, e4, e5⟩ := gcfb_section newKey rest
          { y with fb := xorb b0 (y.eng.E y.fb), counter := y.counter + 8 } j
          (by simp only; omega) (by simp only; omega) (by simp only; omega)
        refine ⟨z, ?_, e2, e3, e4, ?_⟩
        · simp only [mapAcc, hf, Spec.cfb, e1]
        · rw [e5]; simp only; omega
      obtain ⟨z, r1, r2, r3, r4, r5⟩ := hrun
      have hzb : blkRun 8 (gcfbF newKey false) t (x.take 1024) =
          ((Spec.cfb y.eng.E y.fb (chunks 8 (x.take 1024))).flatten, z) := by
        simp only [blkRun, r1]
      have hE : underE newKey y.key = y.eng.E := by
        funext b; simp [underE, hyI.eng]
      rw [hzb, hE, hyfb]
      simp only
      congr 1
      -- the remaining sections
      by_cases hlong : 1024 ≤ x.length
      · have hp128 : 8 * p = 1024 := by rw [← hpq, List.length_take]; omega
        have hzI : GcfbI newKey z := by
          have := (gcfb_dec_len newKey hk (x.take 1024) ⟨p, hpq⟩ t hI false).2
          rw [hzb] at this; exact this
        have := ih (x.drop 1024).length (by simp; omega) (x.drop 1024) hd z hzI (j + 1)
          (by rw [r5, hyc, hc]; omega) (by omega) rfl
        rw [this, if_neg (by omega), if_neg (by omega), r3, r4]
      · have h0 : x.drop 1024 = [] := List.drop_of_length_le (by omega)
        rw [h0]; simp [Spec.meshCfb]

theorem gcfbNew_I (newKey : Bytes → Option BlockCipher) (hk : Key32 newKey) (key iv : Bytes) (x : Gcfb)
    (hl : key.length = 32) (h : gcfbNew newKey key iv = .ok x) :
    GcfbI newKey x ∧ x.counter = 0 ∧ x.fb = iv ∧ x.iv = iv ∧ x.key = key := by
  obtain ⟨b, h1, h2⟩ := hk key hl
  unfold gcfbNew at h
  rw [h1] at h
  simp only at h
  split at h
  · cases h
  · rename_i hiv
    obtain rfl := Res.ok.inj h
    have hiv' : iv.length = 8 := by rw [← h2]; simpa using hiv
    exact ⟨⟨h1, h2, hiv', hiv', hl⟩, rfl, rfl, rfl, rfl⟩

end Verif.Mode
