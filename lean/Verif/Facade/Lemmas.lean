import Verif.Facade.Spec
import Verif.Mode.BlockProps
import Verif.Mode.StreamProps2
import Verif.Hctr.Props
import Verif.Aead.CcmProps
import Verif.Padding.Props
import Verif.Padding.HeapProps
namespace Verif.Facade
open Verif.Mode Verif.Padding Verif.Aead

/-- `f` writes `E` of the source for the lengths in `fits` and panics for the others. -/
def Impl (f : Mem → Slice → Slice → Res Mem) (fits : Nat → Prop) (E : Bytes → Bytes) : Prop :=
  ∀ m d p, d.len = p.len → NoOverlap d p →
    (fits p.len → f m d p = .ok (m.write d.ptr (E (m.read p.ptr p.len)))) ∧ (¬ fits p.len → f m d p = .panic)

/-- The two directions are inverse. -/
def Pair (f g : Mem → Slice → Slice → Res Mem) (fits : Nat → Prop) : Prop :=
  ∃ E D, Impl f fits E ∧ Impl g fits D ∧ ∀ x, fits x.length → (E x).length = x.length ∧ D (E x) = x ∧ (D x).length = x.length

theorem dvd_iff_mod (a n : Nat) : a ∣ n ↔ n % a = 0 := Nat.dvd_iff_mod_eq_zero

theorem blkRun_length {τ : Type} (k : Nat) (hk : 0 < k) (f : τ → Bytes → Bytes × τ) (I : τ → Prop)
    (hlen : ∀ t b, I t → b.length = k → (f t b).1.length = k ∧ I (f t b).2) (x : Bytes) (hx : k ∣ x.length) (t : τ) (hI : I t) :
    (blkRun k f t x).1.length = x.length := by
  have h1 := chunks_all_len k hk x hx
  obtain ⟨h2, _⟩ := mapAcc_all_len k f I hlen _ h1 t hI
  unfold blkRun
  simp only
  rw [flatten_length_of_all k _ h2, mapAcc_length, ← flatten_length_of_all k _ h1, chunks_flatten k hk]

/-- Block modes. -/
theorem block_impl {σ : Type} {bs : Nat} {chk : Bool} {step : σ → Mem → Nat → Nat → Nat → Res (Nat × Mem × σ)}
    {f : σ → Bytes → Bytes × σ} {I : σ → Prop} (h : StepOK bs step f I DisjointRange) (st : σ) (hI : I st) :
    Impl (fun m d p => do let r ← cryptBlocks chk bs step st m d p; .ok r.1) (fun n => bs ∣ n) (fun x => (blkRun bs f st x).1) := by
  intro m d p hl ho
  refine ⟨fun hf => ?_, fun hf => ?_⟩
  · have := (h.cryptDisjoint chk st m d p hI ((dvd_iff_mod _ _).1 hf) (by omega) ho).1
    simp only [this, Res.bind_ok]
  · replace hf : ¬ bs ∣ p.len := hf
    rw [dvd_iff_mod] at hf
    have : cryptBlocks chk bs step st m d p = .panic := by unfold cryptBlocks; rw [if_pos hf]
    simp only [this, Res.bind_panic]

/-- Stream modes. -/
theorem stream_impl {σ τ : Type} {step : Nat → σ → Mem → Nat → Nat → Nat → Res (Nat × Mem × σ)} {R : σ → τ → Prop}
    {run : τ → Bytes → Bytes × τ} (h : StreamOK step R run) {st : σ} {t : τ} (hR : R st t) :
    Impl (fun m d p => do let r ← xorKeyStream step st m d p; .ok r.1) (fun _ => True) (fun x => (run t x).1) := by
  intro m d p hl ho
  obtain ⟨st', e, _⟩ := h.call hR m d p (by omega) ho.noPartial
  simp only [e, Res.bind_ok, not_true_eq_false, false_implies, and_true]
  exact fun _ => trivial

/-- A constructor that panics on a bad iv in front. -/
theorem Impl.guard {σ : Type} {new : Res σ} {f : σ → Mem → Slice → Slice → Res Mem} {fits : Nat → Prop} {E : Bytes → Bytes} {P : Prop}
    (hbad : ¬ P → new = .panic) (hgood : P → ∃ s, new = .ok s ∧ Impl (f s) fits E) :
    Impl (fun m d p => do let s ← new; f s m d p) (fun n => P ∧ fits n) E := by
  intro m d p hl ho
  by_cases hP : P
  · obtain ⟨s, e, hi⟩ := hgood hP
    obtain ⟨a, b⟩ := hi m d p hl ho
    rw [e]
    exact ⟨fun hf => a hf.2, fun hf => b (fun h => hf ⟨hP, h⟩)⟩
  · rw [hbad hP]
    exact ⟨fun hf => absurd hf.1 hP, fun _ => rfl⟩

theorem Impl.congr {f : Mem → Slice → Slice → Res Mem} {fits fits' : Nat → Prop} {E : Bytes → Bytes} (h : Impl f fits E)
    (he : ∀ n, fits n ↔ fits' n) : Impl f fits' E := by
  intro m d p hl ho
  obtain ⟨a, b⟩ := h m d p hl ho
  exact ⟨fun hf => a ((he _).2 hf), fun hf => b (fun h => hf ((he _).1 h))⟩

variable (c : BlockCipher)

theorem pcbcNew_bad {iv : Bytes} (h : ¬ iv.length = c.bs) : pcbcNew c iv = .panic := by unfold pcbcNew; rw [if_pos h]
theorem pcbcNew_good {iv : Bytes} (h : iv.length = c.bs) : pcbcNew c iv = .ok iv := by unfold pcbcNew; rw [if_neg (by simpa using h)]
theorem bcNew_bad {iv : Bytes} (h : ¬ iv.length = c.bs) : bcNew c iv = .panic := by unfold bcNew; rw [if_pos h]
theorem bcNew_good {iv : Bytes} (h : iv.length = c.bs) : bcNew c iv = .ok iv := by
  unfold bcNew; rw [if_neg (by simpa using h), copyInto_eq_left _ _ (by simp [h])]
theorem segNew_bad {iv : Bytes} (h : ¬ iv.length = c.bs) : segNew c iv = .panic := by unfold segNew; rw [if_pos h]
theorem segNew_good {iv : Bytes} (h : iv.length = c.bs) : segNew c iv = .ok iv := by
  unfold segNew; rw [if_neg (by simpa using h), copyInto_eq_left _ _ (by simp [h])]
theorem cfbNew_bad {iv : Bytes} (h : ¬ iv.length = c.bs) : cfbNew c iv = .panic := by unfold cfbNew; rw [if_pos h]
theorem cfbNew_good {iv : Bytes} (h : iv.length = c.bs) : ∃ x, cfbNew c iv = .ok x := by
  unfold cfbNew; rw [if_neg (by simpa using h)]; exact ⟨_, rfl⟩
theorem ofbNew_bad {iv : Bytes} (h : ¬ iv.length = c.bs) : ofbNew c iv = .panic := by unfold ofbNew; rw [if_pos h]
theorem ofbNew_good {iv : Bytes} (h : iv.length = c.bs) : ofbNew c iv = .ok { reg := iv, out := [], used := 0 } := by
  unfold ofbNew; rw [if_neg (by simpa using h), copyInto_eq_left _ _ (by simp [h])]

/-! CBC of the standard library -/

theorem cbcEncF_len (v b : Bytes) (hv : v.length = c.bs) (hb : b.length = c.bs) :
    (cbcEncF c v b).1.length = c.bs ∧ (cbcEncF c v b).2.length = c.bs := by
  have := lenEx c b v hb hv
  exact ⟨this, this⟩

theorem cbcDecF_len (v b : Bytes) (hv : v.length = c.bs) (hb : b.length = c.bs) :
    (cbcDecF c v b).1.length = c.bs ∧ (cbcDecF c v b).2.length = c.bs := by
  have := c.lenD b hb
  refine ⟨?_, hb⟩
  unfold cbcDecF
  rw [xorb_length]; omega

theorem cbc_roundtrip (x v : Bytes) (hx : c.bs ∣ x.length) (hv : v.length = c.bs) :
    (blkRun c.bs (cbcDecF c) v (blkRun c.bs (cbcEncF c) v x).1).1 = x := by
  refine blkRun_roundtrip c.bs c.bs_pos _ _ (fun v => v.length = c.bs) (cbcEncF_len c)
    (fun a b => a = b ∧ a.length = c.bs) ?_ x hx v v hv ⟨rfl, hv⟩
  rintro t _ b ⟨rfl, ht⟩ hb
  have hE := lenEx c b t hb ht
  refine ⟨?_, rfl, hE⟩
  simp only [cbcEncF, cbcDecF]
  rw [c.DE _ (by simp [hb, ht]), xorb_xorb_cancel_right b t (by omega)]

theorem cbc_impl (f : Bytes → Bytes → Bytes × Bytes) (iv : Bytes) :
    Impl (fun m d p => cbcCrypt c f iv m d p) (fun n => iv.length = c.bs ∧ c.bs ∣ n) (fun x => (blkRun c.bs f iv x).1) := by
  intro m d p hl ho
  have hp : inexactOverlap ⟨d.ptr, p.len, d.cap⟩ p = false := ho.noPartial
  simp only [dvd_iff_mod]
  unfold cbcCrypt
  refine ⟨fun hf => ?_, fun hf => ?_⟩
  · rw [if_neg (by simpa using hf.1), if_neg (by simpa using hf.2), if_neg (by omega), hp]
    rfl
  · by_cases h1 : iv.length = c.bs
    · rw [if_neg (by simpa using h1), if_pos (fun h => hf ⟨h1, h⟩)]
    · rw [if_pos h1]

theorem ctr_impl (iv : Bytes) :
    Impl (fun m d p => ctrXor c iv m d p) (fun _ => iv.length = c.bs) (fun x => xorb x (ctrKs c.E c.bs iv x.length)) := by
  intro m d p hl ho
  refine ⟨fun hf => ?_, fun hf => ?_⟩
  · simp only [ctrXor_ok c iv hf m d p (by omega) ho.noPartial, Mem.read_length]
  · replace hf : ¬ iv.length = c.bs := hf
    unfold ctrXor; simp only [ne_eq, hf, not_false_eq_true, if_true]

theorem apart_of_noOverlap {d p : Slice} (ho : NoOverlap d p) (h : 16 ≤ p.len) : Hctr.SameOrApart d p p.len := by
  have := ho.disjoint
  unfold Hctr.SameOrApart; omega

theorem hctr_impl (env : Env) (tweak hkey : Bytes) (h16 : c.bs = 16) (hc : env.conc ≠ some 0) :
    Pair (fun m d p => encInto env c [] tweak hkey .hctr m d p) (fun m d p => decInto env c [] tweak hkey .hctr m d p)
      (Fits .hctr c.bs 0 tweak.length hkey.length) := by
  by_cases hk : tweak.length = 16 ∧ hkey.length = 16
  · obtain ⟨s, hs⟩ := (Hctr.C38_new_ok_iff c env.conc tweak hkey).1.2 hk
    obtain ⟨ec, ecc, -⟩ := Hctr.new_c hs
    have h16' : s.c.bs = 16 := by rw [ec]; exact h16
    have hc' : s.conc ≠ some 0 := by rw [ecc]; exact hc
    refine ⟨Hctr.Spec.encryptH (Hctr.uhash s) s.c.E, Hctr.Spec.decryptH (Hctr.uhash s) s.c.E s.c.D, ?_, ?_, ?_⟩
    · intro m d p hl ho
      simp only [encInto, hs, Res.bind_ok]
      refine ⟨fun hf => Hctr.encrypt_eq s h16' hc' m d p hl hf.2.2 (apart_of_noOverlap ho hf.2.2), fun hf => ?_⟩
      unfold Hctr.encrypt
      rw [if_neg (by omega), if_pos (by simp only [Fits] at hf; omega)]
    · intro m d p hl ho
      simp only [decInto, hs, Res.bind_ok]
      refine ⟨fun hf => Hctr.decrypt_eq s h16' hc' m d p hl hf.2.2 (apart_of_noOverlap ho hf.2.2), fun hf => ?_⟩
      unfold Hctr.decrypt
      rw [if_neg (by omega), if_pos (by simp only [Fits] at hf; omega)]
    · intro x hx
      have hx' : 16 ≤ x.length := hx.2.2
      exact ⟨Hctr.encryptH_length s.c h16' _ (Hctr.uhash_length s) x hx',
        Hctr.decryptH_encryptH s.c h16' _ (Hctr.uhash_length s) x hx',
        Hctr.decryptH_length s.c h16' _ (Hctr.uhash_length s) x hx'⟩
  · have hs := (Hctr.C38_new_ok_iff c env.conc tweak hkey).2 hk
    refine ⟨id, id, ?_, ?_, ?_⟩
    · intro m d p _ _
      simp only [encInto, hs, Res.bind_panic]
      exact ⟨fun hf => absurd ⟨hf.1, hf.2.1⟩ hk, fun _ => trivial⟩
    · intro m d p _ _
      simp only [decInto, hs, Res.bind_panic]
      exact ⟨fun hf => absurd ⟨hf.1, hf.2.1⟩ hk, fun _ => trivial⟩
    · intro x hx; exact absurd ⟨hx.1, hx.2.1⟩ hk

/-- Every length-preserving mode: decryption is the inverse of encryption, and both panic exactly when the lengths do not
fit. -/
theorem mode_pair (env : Env) (iv tweak hkey : Bytes) (md : ModeN) (hmd : SameLength md = true) (hbs : c.bs < 512)
    (hh : md = .hctr → c.bs = 16 ∧ env.conc ≠ some 0) :
    Pair (fun m d p => encInto env c iv tweak hkey md m d p) (fun m d p => decInto env c iv tweak hkey md m d p)
      (Fits md c.bs iv.length tweak.length hkey.length) := by
  cases md with
  | gcm => cases hmd
  | ccm => cases hmd
  | ocfb => cases hmd
  | other => cases hmd
  | hctr =>
    obtain ⟨a, b⟩ := hh rfl
    exact hctr_impl c env tweak hkey a b
  | ecb =>
    refine ⟨_, _, block_impl (ecbEnc_ok c).toDisjoint () trivial, block_impl (ecbDec_ok c).toDisjoint () trivial, ?_⟩
    intro x hx
    exact ⟨blkRun_length c.bs c.bs_pos _ _ (ecbEnc_ok c).len x hx () trivial, ecb_roundtrip c x hx,
      blkRun_length c.bs c.bs_pos _ _ (ecbDec_ok c).len x hx () trivial⟩
  | cbc =>
    refine ⟨_, _, cbc_impl c _ iv, cbc_impl c _ iv, ?_⟩
    intro x hx
    exact ⟨blkRun_length c.bs c.bs_pos _ _ (cbcEncF_len c) x hx.2 iv hx.1, cbc_roundtrip c x iv hx.2 hx.1,
      blkRun_length c.bs c.bs_pos _ _ (cbcDecF_len c) x hx.2 iv hx.1⟩
  | pcbc =>
    refine ⟨_, _, Impl.guard (pcbcNew_bad c) (fun h => ⟨iv, pcbcNew_good c h, block_impl (pcbcEnc_ok c) iv h⟩),
      Impl.guard (pcbcNew_bad c) (fun h => ⟨iv, pcbcNew_good c h, block_impl (pcbcDec_ok c) iv h⟩), ?_⟩
    intro x hx
    exact ⟨blkRun_length c.bs c.bs_pos _ _ (pcbcEnc_ok c).len x hx.2 iv hx.1, pcbc_roundtrip c x iv hx.2 hx.1,
      blkRun_length c.bs c.bs_pos _ _ (pcbcDec_ok c).len x hx.2 iv hx.1⟩
  | bc =>
    refine ⟨_, _, Impl.guard (bcNew_bad c) (fun h => ⟨iv, bcNew_good c h, block_impl (bcEnc_ok c).toDisjoint iv h⟩),
      Impl.guard (bcNew_bad c) (fun h => ⟨iv, bcNew_good c h, block_impl (bcDec_ok c).toDisjoint iv h⟩), ?_⟩
    intro x hx
    exact ⟨blkRun_length c.bs c.bs_pos _ _ (bcEnc_ok c).len x hx.2 iv hx.1, bc_roundtrip c x iv hx.2 hx.1,
      blkRun_length c.bs c.bs_pos _ _ (bcDec_ok c).len x hx.2 iv hx.1⟩
  | cfb =>
    have hi : ∀ dec, Impl (fun m d p => do let x ← cfbNew c iv; let r ← cfbXor c dec x m d p; .ok r.1)
        (Fits .cfb c.bs iv.length tweak.length hkey.length) (fun x => (bRun (cfbF c dec) (iv, []) x).1) := by
      intro dec
      refine (Impl.guard (cfbNew_bad c) (fun h => ?_)).congr (fun n => iff_of_eq (and_true _))
      obtain ⟨x, hx⟩ := cfbNew_good c h
      exact ⟨x, hx, stream_impl (cfb_ok c dec) (cfbNew_R c hx).2⟩
    exact ⟨_, _, hi false, hi true, fun x _ => ⟨bRun_length .., (cfb_byte_roundtrip c x _).1, bRun_length ..⟩⟩
  | cfb1 =>
    have hi : ∀ dec, Impl (fun m d p => do let x ← segNew c iv; let r ← cfb1Xor c dec x m d p; .ok r.1)
        (Fits .cfb1 c.bs iv.length tweak.length hkey.length) (fun x => (bRun (cfb1F c dec) iv x).1) := by
      intro dec
      exact (Impl.guard (segNew_bad c) (fun h => ⟨iv, segNew_good c h, stream_impl (cfb1_ok c dec) rfl⟩)).congr (fun n => iff_of_eq (and_true _))
    exact ⟨_, _, hi false, hi true, fun x _ => ⟨bRun_length .., (cfb1_roundtrip c x _).1, bRun_length ..⟩⟩
  | cfb8 =>
    have hi : ∀ dec, Impl (fun m d p => do let x ← segNew c iv; let r ← cfb8Xor c dec x m d p; .ok r.1)
        (Fits .cfb8 c.bs iv.length tweak.length hkey.length) (fun x => (bRun (cfb8F c dec) iv x).1) := by
      intro dec
      exact (Impl.guard (segNew_bad c) (fun h => ⟨iv, segNew_good c h, stream_impl (cfb8_ok c dec) ⟨rfl, h⟩⟩)).congr (fun n => iff_of_eq (and_true _))
    exact ⟨_, _, hi false, hi true, fun x _ => ⟨bRun_length .., (cfb8_roundtrip c x _).1, bRun_length ..⟩⟩
  | ofb =>
    have hi : Impl (fun m d p => do let x ← ofbNew c iv; let r ← ofbXor c x m d p; .ok r.1)
        (Fits .ofb c.bs iv.length tweak.length hkey.length) (fun x => (addRun (Spec.streamOf c.bs (Spec.ofbBlock c.E iv)) 0 x).1) :=
      (Impl.guard (ofbNew_bad c) (fun h => ⟨_, ofbNew_good c h, stream_impl (ofb_ok c iv h hbs)
        (bufR_init _ _ _ (Nat.le_refl _))⟩)).congr (fun n => iff_of_eq (and_true _))
    refine ⟨_, _, hi, hi, fun x _ => ?_⟩
    have hl : ∀ y, (addRun (Spec.streamOf c.bs (Spec.ofbBlock c.E iv)) 0 y).1.length = y.length := by
      intro y; simp [addRun]
    exact ⟨hl x, addRun_roundtrip _ 0 x, hl x⟩
  | ofb8 =>
    have hi : Impl (fun m d p => do let x ← ofbNew c iv; let r ← ofb8Xor c x m d p; .ok r.1)
        (Fits .ofb8 c.bs iv.length tweak.length hkey.length) (fun x => (addRun (Spec.ofb8Byte c.E iv) 0 x).1) :=
      (Impl.guard (ofbNew_bad c) (fun h => ⟨_, ofbNew_good c h, stream_impl (ofb8_ok c iv h)
        (bufR_init _ _ _ (Nat.le_refl _))⟩)).congr (fun n => iff_of_eq (and_true _))
    refine ⟨_, _, hi, hi, fun x _ => ?_⟩
    have hl : ∀ y, (addRun (Spec.ofb8Byte c.E iv) 0 y).1.length = y.length := by
      intro y; simp [addRun]
    exact ⟨hl x, addRun_roundtrip _ 0 x, hl x⟩
  | ctr =>
    refine ⟨_, _, ctr_impl c iv, ctr_impl c iv, fun x _ => ?_⟩
    have hl : ∀ y : Bytes, (xorb y (ctrKs c.E c.bs iv y.length)).length = y.length := by
      intro y; rw [xorb_length, ctrKs_length]; omega
    refine ⟨hl x, ?_, hl x⟩
    rw [hl x]
    exact xor_ctr_ctr c.E c.bs iv x _ rfl

end Verif.Facade
