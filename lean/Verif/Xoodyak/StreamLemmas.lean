import Verif.Xoodyak.Stream
import Verif.Xoodyak.Inverse
/-! Lemmas for C150. -/
namespace Verif.Xoodyak
open Verif Mode

/-- Ciphertext and tag of the rest of a message, block by block. -/
def blk : Xk → Byte → List Bytes → Bytes × Bytes
  | x, cu, [] => ([], (squeeze (if cu = 0x80 then (cryptBlock x [] cu false).1 else x) 16).2)
  | x, cu, B :: Bs => ((cryptBlock x B cu false).2 ++ (blk (cryptBlock x B cu false).1 0 Bs).1, (blk (cryptBlock x B cu false).1 0 Bs).2)

theorem chunks_small (P : Bytes) (h0 : P ≠ []) (h : P.length ≤ 24) : chunks 24 P = [P] := by
  have tk : P.take 24 = P := List.take_of_length_le h
  have td : P.drop 24 = [] := List.drop_of_length_le h
  rw [chunks_cons 24 (by omega) P h0, tk, td, chunks_nil]

theorem cryptLoop_blk : ∀ (k : Nat) (x : Xk) (P : Bytes) (cu : Byte), P.length < k → P ≠ [] →
    blk x cu (chunks 24 P) = ((cryptLoop k x P cu false).2, (squeeze (cryptLoop k x P cu false).1 16).2)
  | 0, _, _, _, h, _ => absurd h (by omega)
  | k + 1, x, P, cu, h, h0 => by
    have c0 : ¬ ((0 : Byte) = 0x80) := by decide
    by_cases hl : P.length ≤ 24
    · have hn : (if P.length < 24 then P.length else 24) = P.length := by split <;> omega
      have t : P.take P.length = P := List.take_of_length_le (Nat.le_refl _)
      rw [chunks_small P h0 hl]
      unfold cryptLoop
      simp only []
      rw [hn, t, if_pos (by omega)]
      simp only [blk, c0, if_false, List.append_nil]
    · have hn : (if P.length < 24 then P.length else 24) = 24 := by split <;> omega
      have hd : P.drop 24 ≠ [] := by
        intro e
        have := congrArg List.length e
        rw [List.length_drop, List.length_nil] at this
        omega
      rw [chunks_cons 24 (by omega) P h0]
      unfold cryptLoop
      simp only []
      rw [hn, if_neg (by omega)]
      simp only [blk]
      rw [cryptLoop_blk k _ (P.drop 24) 0 (by rw [List.length_drop]; omega) hd]

/-- From the state after the associated data, `blk` is the published mode. -/
theorem blk_aead (K N A P : Bytes) (hK : K.length = 16) (hN : N.length = 16) :
    blk (absorb (xKeyed K N []) A) 0x80 (chunks 24 P) = Spec.aead K N A P := by
  have hk : K ≠ [] := by intro h; rw [h] at hK; simp at hK
  have e := encAead_eq P K N A hK hN
  unfold encAead at e
  rw [if_neg (by omega), if_neg (by omega), instantiate_keyed K N [] hk (by omega)] at e
  have r := adState_rel K N A
  have rt := adState_rates K N A
  have e' : Res.ok ((crypt (absorb (xKeyed K N []) A) P false).2, (squeeze (crypt (absorb (xKeyed K N []) A) P false).1 16).2) = Res.ok (Spec.aead K N A P) := by
    rw [← e]
    show _ = (encrypt (absorb (xKeyed K N []) A) P).bind _
    unfold encrypt
    rw [r.k, rt.2]
    rfl
  rw [← Res.ok.inj e']
  by_cases h : P = []
  · subst h; rfl
  · exact cryptLoop_blk _ _ P 0x80 (by omega) h

theorem cryptBlock_len (x : Xk) (B : Bytes) (cu : Byte) (d : Bool) (h : B.length ≤ 48) : (cryptBlock x B cu d).2.length = B.length := by
  unfold cryptBlock
  simp only []
  rw [xorb_length, ser_len]; omega

theorem cryptBlock_inv (x : Xk) (B : Bytes) (cu : Byte) (h : B.length ≤ 48) :
    cryptBlock x (cryptBlock x B cu false).2 cu true = ((cryptBlock x B cu false).1, B) := by
  unfold cryptBlock
  have e : xorb (ser (up x cu 0).1.st) (xorb (ser (up x cu 0).1.st) B) = B := by
    rw [xorb_comm (ser (up x cu 0).1.st) B, xorb_comm, xorb_xorb_cancel_right _ _ (by rw [ser_len]; exact h)]
  simp only [if_true, Bool.false_eq_true, if_false]
  rw [e]

theorem blk_len : ∀ (n : Nat) (x : Xk) (cu : Byte) (P : Bytes), P.length ≤ n → (blk x cu (chunks 24 P)).1.length = P.length := by
  intro n
  induction n with
  | zero =>
    intro x cu P h
    have : P = [] := List.length_eq_zero_iff.mp (by omega)
    subst this; rfl
  | succ n ih =>
    intro x cu P h
    by_cases h0 : P = []
    · subst h0; rfl
    · have hp : 0 < P.length := List.length_pos_iff.mpr h0
      rw [chunks_cons 24 (by omega) P h0]
      simp only [blk]
      rw [List.length_append, cryptBlock_len _ _ _ _ (by rw [List.length_take]; omega), ih _ _ _ (by rw [List.length_drop]; omega),
        List.length_take, List.length_drop]
      omega

/-! The writer. -/

/-- The writer has been given `P`. -/
def EsInv (x : Xk) (P : Bytes) (e : Es) : Prop :=
  e.closed = false ∧ e.buf.length < 24 ∧ ∃ Bs : List Bytes, (∀ B ∈ Bs, B.length = 24) ∧ P = Bs.flatten ++ e.buf ∧
    ∀ Cs, blk x 0x80 (Bs ++ Cs) = (e.out ++ (blk e.xk e.cu Cs).1, (blk e.xk e.cu Cs).2)

theorem esBlock_blk (e : Es) (B : Bytes) (Cs : List Bytes) :
    (e.out ++ (blk e.xk e.cu (B :: Cs)).1, (blk e.xk e.cu (B :: Cs)).2) =
      ((esBlock e B).out ++ (blk (esBlock e B).xk (esBlock e B).cu Cs).1, (blk (esBlock e B).xk (esBlock e B).cu Cs).2) := by
  simp only [blk, esBlock, List.append_assoc]

theorem esStep (x : Xk) (P B : Bytes) (e : Es) (Bs : List Bytes) (hB : ∀ B ∈ Bs, B.length = 24) (hl : B.length = 24) (hp : P = Bs.flatten)
    (hc : ∀ Cs, blk x 0x80 (Bs ++ Cs) = (e.out ++ (blk e.xk e.cu Cs).1, (blk e.xk e.cu Cs).2)) :
    ∃ Bs : List Bytes, (∀ B ∈ Bs, B.length = 24) ∧ P ++ B = Bs.flatten ∧
    ∀ Cs, blk x 0x80 (Bs ++ Cs) = ((esBlock e B).out ++ (blk (esBlock e B).xk (esBlock e B).cu Cs).1, (blk (esBlock e B).xk (esBlock e B).cu Cs).2) := by
  refine ⟨Bs ++ [B], ?_, by rw [hp]; simp, ?_⟩
  · intro C hC
    rcases List.mem_append.mp hC with h | h
    · exact hB C h
    · rw [List.mem_singleton.mp h, hl]
  · intro Cs
    rw [List.append_assoc, hc, ← esBlock_blk]
    rfl

theorem esLoop_inv (x : Xk) : ∀ (k : Nat) (p P : Bytes) (e : Es), p.length ≤ k → EsInv x P e → e.buf = [] →
    EsInv x (P ++ p) (let r := esLoop k e p; if r.2.length > 0 then { r.1 with buf := r.2 } else r.1) := by
  intro k
  induction k with
  | zero =>
    intro p P e hp he hb
    have : p = [] := List.length_eq_zero_iff.mp (by omega)
    subst this
    simpa [esLoop] using he
  | succ k ih =>
    intro p P e hp he hb
    obtain ⟨h1, h2, Bs, h3, h4, h5⟩ := he
    rw [hb, List.append_nil] at h4
    unfold esLoop
    by_cases hl : 24 ≤ p.length
    · rw [if_pos hl]
      obtain ⟨Bs', g1, g2, g3⟩ := esStep x P (p.take 24) e Bs h3 (by rw [List.length_take]; omega) h4 h5
      have := ih (p.drop 24) (P ++ p.take 24) (esBlock e (p.take 24)) (by rw [List.length_drop]; omega)
        ⟨h1, h2, Bs', g1, by show _ = _ ++ e.buf; rw [hb, List.append_nil]; exact g2, g3⟩ hb
      rw [List.append_assoc, List.take_append_drop] at this
      exact this
    · rw [if_neg hl]
      simp only []
      by_cases hz : p.length > 0
      · rw [if_pos hz]
        exact ⟨h1, by show p.length < 24; omega, Bs, h3, by rw [h4], h5⟩
      · have : p = [] := List.length_eq_zero_iff.mp (by omega)
        subst this
        rw [if_neg hz, List.append_nil]
        exact ⟨h1, h2, Bs, h3, by rw [h4, hb, List.append_nil], h5⟩

theorem esWrite_inv (x : Xk) (p P : Bytes) (e : Es) (he : EsInv x P e) : EsInv x (P ++ p) (esWrite e p) := by
  have he0 := he
  obtain ⟨h1, h2, Bs, h3, h4, h5⟩ := he
  unfold esWrite
  by_cases hz : e.buf.length > 0
  · rw [if_pos hz]
    simp only []
    by_cases hf : 24 - e.buf.length ≤ p.length
    · have em : min (24 - e.buf.length) p.length = 24 - e.buf.length := by omega
      rw [em]
      have hl : (e.buf ++ p.take (24 - e.buf.length)).length = 24 := by
        rw [List.length_append, List.length_take]; omega
      rw [if_pos hl]
      obtain ⟨Bs', g1, g2, g3⟩ := esStep x Bs.flatten (e.buf ++ p.take (24 - e.buf.length)) e Bs h3 hl rfl h5
      have := esLoop_inv x (p.drop (24 - e.buf.length)).length (p.drop (24 - e.buf.length)) (P ++ p.take (24 - e.buf.length))
        { esBlock e (e.buf ++ p.take (24 - e.buf.length)) with buf := [] } (Nat.le_refl _)
        ⟨h1, by show 0 < 24; omega, Bs', g1, by show _ = _ ++ []; rw [List.append_nil, ← g2, h4, List.append_assoc], g3⟩ rfl
      rw [List.append_assoc, List.take_append_drop] at this
      exact this
    · have em : min (24 - e.buf.length) p.length = p.length := by omega
      have t : p.take p.length = p := List.take_of_length_le (Nat.le_refl _)
      have dr : p.drop p.length = [] := List.drop_of_length_le (Nat.le_refl _)
      have hne : ¬ (e.buf ++ p).length = 24 := by rw [List.length_append]; omega
      rw [em, t, dr]
      simp only [hne, if_false, esLoop, List.length_nil, gt_iff_lt, Nat.lt_irrefl]
      exact ⟨h1, by show (e.buf ++ p).length < 24; rw [List.length_append]; omega, Bs, h3, by rw [h4]; simp, h5⟩
  · rw [if_neg hz]
    exact esLoop_inv x p.length p P e (Nat.le_refl _) he0 (List.length_eq_zero_iff.mp (by omega))

theorem esClose_out (x : Xk) (P : Bytes) (e : Es) (he : EsInv x P e) :
    ∃ e', esClose e = .ok e' ∧ e'.closed = true ∧ e'.out = (blk x 0x80 (chunks 24 P)).1 ++ (blk x 0x80 (chunks 24 P)).2 := by
  obtain ⟨h1, h2, Bs, h3, h4, h5⟩ := he
  have dv : 24 ∣ Bs.flatten.length := by
    clear h4 h5
    induction Bs with
    | nil => simp
    | cons B Bs ih =>
      rw [List.flatten_cons, List.length_append, h3 B (by simp)]
      exact Nat.dvd_add (Nat.dvd_refl _) (ih fun C hC => h3 C (by simp [hC]))
  have hch : chunks 24 P = Bs ++ chunks 24 e.buf := by
    rw [h4, chunks_append 24 (by omega) _ _ dv, chunks_of_flatten 24 (by omega) Bs h3]
  have c0 : ¬ ((0 : Byte) = 0x80) := by decide
  have hcl : ¬ e.closed = true := by rw [h1]; decide
  unfold esClose
  rw [if_neg hcl, hch, h5]
  by_cases hz : e.buf = []
  · rw [hz]
    refine ⟨_, rfl, ?_, ?_⟩
    · simp only [List.length_nil, gt_iff_lt, Nat.lt_irrefl, if_false]
      split <;> rfl
    · simp only [List.length_nil, gt_iff_lt, Nat.lt_irrefl, if_false, chunks_nil, blk, List.append_nil]
      split <;> simp_all
  · have hp : e.buf.length > 0 := List.length_pos_iff.mpr hz
    rw [chunks_small e.buf hz (by omega)]
    refine ⟨_, rfl, ?_, ?_⟩
    · simp only [hp, if_true, esBlock, c0, if_false]
    · simp only [hp, if_true, esBlock, c0, if_false, blk, List.append_nil]

/-! The reader. -/

theorem src_read (s : Src) (cap : Nat) (hc : 0 < cap) (hs : ∀ e ∈ s.sched, e ≠ none) :
    (s.read cap).2.2 ≠ .fail ∧ (s.read cap).2.1 ++ (s.read cap).1.rest = s.rest ∧ (s.read cap).2.1.length ≤ cap ∧
    (∀ e ∈ (s.read cap).1.sched, e ≠ none) ∧ ((s.read cap).2.2 = .eof → (s.read cap).1.rest = []) ∧
    ((s.read cap).2.2 = .more → (s.read cap).1.sched.length + (cap - (s.read cap).2.1.length) < s.sched.length + cap) := by
  obtain ⟨rest, sched, eager⟩ := s
  match sched, hs with
  | [], hs =>
    unfold Src.read
    simp only []
    by_cases hr : rest = []
    · simp [hr]
    · have hp : 0 < rest.length := List.length_pos_iff.mpr hr
      simp only [hr, if_false]
      refine ⟨by split <;> simp, List.take_append_drop _ _, by rw [List.length_take]; omega, by simp, ?_, ?_⟩
      · intro h
        by_cases hn : List.drop cap rest = []
        · exact hn
        · have : (List.drop cap rest).isEmpty = false := by simpa using hn
          rw [this] at h
          simp at h
      · intro _; rw [List.length_take]; simp; omega
  | none :: sc, hs => exact absurd rfl (hs none (by simp))
  | some k :: sc, hs =>
    have hs' : ∀ e ∈ sc, e ≠ none := fun e he => hs e (by simp [he])
    unfold Src.read
    simp only []
    by_cases hr : rest = []
    · simp only [hr, if_true]
      exact ⟨by simp, rfl, by simp, hs', by simp, by simp⟩
    · simp only [hr, if_false]
      refine ⟨by split <;> simp, List.take_append_drop _ _, by rw [List.length_take]; omega, hs', ?_, ?_⟩
      · intro h
        by_cases hn : List.drop (min k cap) rest = []
        · exact hn
        · have : (List.drop (min k cap) rest).isEmpty = false := by simpa using hn
          rw [this] at h
          simp at h
      · intro _; simp only [List.length_cons]; omega

structure Filled (d f : Ds) : Prop where
  xl : f.x.length = 40
  nx : f.nx ≤ 40
  st : f.x.take f.nx ++ f.src.rest = d.x.take d.nx ++ d.src.rest
  sc : ∀ e ∈ f.src.sched, e ≠ none
  inc : f.complete = false → f.nx = 40
  com : f.complete = true → f.src.rest = []
  xk : f.xk = d.xk
  cu : f.cu = d.cu
  pt : f.ptx = d.ptx

theorem fill_spec : ∀ (k : Nat) (d : Ds), d.x.length = 40 → d.nx ≤ 40 → (∀ e ∈ d.src.sched, e ≠ none) → d.complete = false →
    d.src.sched.length + (40 - d.nx) < k → (fill' k d).2 ≠ .fail ∧ Filled d (fill' k d).1 := by
  intro k
  induction k with
  | zero => intro d _ _ _ _ h; omega
  | succ k ih =>
    intro d hx hn hs hc hk
    unfold fill'
    by_cases hl : d.nx < 40
    · rw [if_pos hl]
      obtain ⟨g1, g2, g3, g4, g5, g6⟩ := src_read d.src (40 - d.nx) (by omega) hs
      simp only []
      generalize d.src.read (40 - d.nx) = r at g1 g2 g3 g4 g5 g6
      obtain ⟨s', o, e⟩ := r
      simp only [] at g1 g2 g3 g4 g5 g6 ⊢
      have hx' : (d.x.take d.nx ++ o ++ d.x.drop (d.nx + o.length)).length = 40 := by
        rw [List.length_append, List.length_append, List.length_take, List.length_drop]; omega
      have hd : (d.x.take d.nx ++ o).length = d.nx + o.length := by rw [List.length_append, List.length_take]; omega
      have hst : (d.x.take d.nx ++ o ++ d.x.drop (d.nx + o.length)).take (d.nx + o.length) ++ s'.rest = d.x.take d.nx ++ d.src.rest := by
        have := List.take_left (l₁ := d.x.take d.nx ++ o) (l₂ := d.x.drop (d.nx + o.length))
        rw [hd] at this
        rw [this, List.append_assoc, g2]
      match e, g1, g5, g6 with
      | .fail, g1, _, _ => exact absurd rfl g1
      | .eof, _, g5, _ =>
        exact ⟨by simp, hx', by show d.nx + o.length ≤ 40; omega, hst, g4, by simp, fun _ => g5 rfl, rfl, rfl, rfl⟩
      | .more, _, _, g6 =>
        have g6 := g6 rfl
        obtain ⟨i1, i2⟩ := ih { d with src := s', x := d.x.take d.nx ++ o ++ d.x.drop (d.nx + o.length), nx := d.nx + o.length } hx'
          (by show d.nx + o.length ≤ 40; omega) g4 hc (by show s'.sched.length + (40 - (d.nx + o.length)) < k; omega)
        exact ⟨i1, i2.xl, i2.nx, i2.st.trans hst, i2.sc, i2.inc, i2.com, i2.xk, i2.cu, i2.pt⟩
    · rw [if_neg hl]
      exact ⟨by simp, hx, hn, rfl, hs, fun _ => by show d.nx = 40; omega, fun h => by rw [hc] at h; exact absurd h (by simp), rfl, rfl, rfl⟩

/-- Between turns, nothing decrypted is waiting: the bytes still to come are the ciphertext of `P` and `t`, and the tag of `P` is `v`. -/
structure Idle (P t v : Bytes) (d : Ds) : Prop where
  xl : d.x.length = 40
  pt : d.ptx = 0
  nf : d.complete = false
  nl : d.nx ≤ 16
  sc : ∀ e ∈ d.src.sched, e ≠ none
  st : d.x.take d.nx ++ d.src.rest = (blk d.xk d.cu (chunks 24 P)).1 ++ t
  tg : (blk d.xk d.cu (chunks 24 P)).2 = v

/-- `pend` is decrypted and waiting, `P` comes after it. -/
structure Pend (pend P t v : Bytes) (d : Ds) : Prop where
  xl : d.x.length = 40
  pt : d.ptx = pend.length
  pos : pend ≠ []
  pl : pend.length ≤ 24
  nx : d.nx = 16
  cu : d.cu = 0
  sc : ∀ e ∈ d.src.sched, e ≠ none
  xp : d.x.take pend.length = pend
  st : (d.x.drop pend.length).take 16 ++ d.src.rest = (blk d.xk 0 (chunks 24 P)).1 ++ t
  com : d.complete = true → d.src.rest = [] ∧ P = []
  tg : (blk d.xk 0 (chunks 24 P)).2 = v

/-- All has been read and the tag compared. -/
def Fin (d : Ds) : Prop := d.complete = true ∧ d.nx = 0

theorem append_eq_take (a b c d : Bytes) (h : a ++ b = c ++ d) (hl : c.length ≤ a.length) : a.take c.length = c ∧ a.drop c.length ++ b = d := by
  have h1 := congrArg (List.take c.length) h
  have h2 := congrArg (List.drop c.length) h
  rw [List.take_append_of_le_length hl, List.take_left] at h1
  rw [List.drop_append_of_le_length hl, List.drop_left] at h2
  exact ⟨h1, h2⟩

/-- A filled state with nothing left but the tag. -/
theorem filled_nil (t v : Bytes) (ht : t.length = 16) (n : Nat) (d f : Ds) (h : Idle [] t v d) (hf : Filled d f) :
    decBlock n f = f ∧ f.complete = true ∧ f.nx = 16 ∧ f.x.take 16 = t := by
  have e := hf.st.trans h.st
  have e2 : f.x.take f.nx ++ f.src.rest = t := e
  have l := congrArg List.length e2
  have hx := hf.xl
  have hn := hf.nx
  rw [List.length_append, List.length_take, ht] at l
  have hc : f.complete = true := by
    cases hcc : f.complete with
    | true => rfl
    | false => have := hf.inc hcc; omega
  have hr := hf.com hc
  rw [hr, List.length_nil] at l
  have hn16 : f.nx = 16 := by omega
  rw [hr, List.append_nil, hn16] at e2
  refine ⟨?_, hc, hn16, e2⟩
  unfold decBlock
  rw [if_neg (by omega)]

/-- A filled state with ciphertext in it: the block taken is the first block of `P`. -/
theorem filled_block (P t v : Bytes) (ht : t.length = 16) (hP : P ≠ []) (d f : Ds) (h : Idle P t v d) (hf : Filled d f) :
    (f.nx = 40 ∨ (f.complete = true ∧ 16 < f.nx)) ∧ (P.take 24).length = f.nx - 16 ∧
    cryptBlock f.xk (f.x.take (f.nx - 16)) f.cu true = ((cryptBlock d.xk (P.take 24) d.cu false).1, P.take 24) ∧
    (f.x.drop (f.nx - 16)).take 16 ++ f.src.rest = (blk (cryptBlock d.xk (P.take 24) d.cu false).1 0 (chunks 24 (P.drop 24))).1 ++ t ∧
    (blk (cryptBlock d.xk (P.take 24) d.cu false).1 0 (chunks 24 (P.drop 24))).2 = v ∧
    (f.complete = true → P.drop 24 = []) := by
  have hp : 0 < P.length := List.length_pos_iff.mpr hP
  have hx := hf.xl
  have hn := hf.nx
  have e := hf.st.trans h.st
  have l := congrArg List.length e
  rw [List.length_append, List.length_take, List.length_append, blk_len _ _ _ _ (Nat.le_refl _), ht] at l
  have hk : (P.take 24).length = f.nx - 16 := by
    rw [List.length_take]
    cases hc : f.complete with
    | false => have := hf.inc hc; omega
    | true => rw [hf.com hc, List.length_nil] at l; omega
  have hcond : f.nx = 40 ∨ (f.complete = true ∧ 16 < f.nx) := by
    cases hc : f.complete with
    | false => exact Or.inl (hf.inc hc)
    | true => right; rw [hf.com hc, List.length_nil] at l; exact ⟨rfl, by omega⟩
  have hnx : 16 < f.nx := by rcases hcond with h | h <;> omega
  have hlt : (P.take 24).length ≤ 24 := by rw [List.length_take]; omega
  have tg := h.tg
  rw [chunks_cons 24 (by omega) P hP] at e tg
  simp only [blk] at e tg
  rw [List.append_assoc] at e
  have cl := cryptBlock_len d.xk (P.take 24) d.cu false (by omega)
  obtain ⟨a1, a2⟩ := append_eq_take _ _ _ _ e (by rw [cl, hk, List.length_take]; omega)
  rw [cl, hk] at a1 a2
  rw [List.take_take, Nat.min_eq_left (by omega)] at a1
  have a3 : (f.x.take f.nx).drop (f.nx - 16) = (f.x.drop (f.nx - 16)).take 16 := by
    rw [List.drop_take]
    congr 1
    omega
  rw [a3] at a2
  refine ⟨hcond, hk, ?_, a2, tg, ?_⟩
  · rw [a1, hf.xk, hf.cu, cryptBlock_inv _ _ _ (by omega)]
  · intro hc
    rw [hf.com hc, List.length_nil] at l
    exact List.drop_of_length_le (by omega)

theorem fillAll_filled (P t v : Bytes) (d : Ds) (h : Idle P t v d) : (fillAll d).2 ≠ .fail ∧ Filled d (fillAll d).1 :=
  fill_spec _ d h.xl (by have := h.nl; omega) h.sc h.nf (by omega)

/-- The verdict. -/
def verdict (t v : Bytes) : DErr := if v = t then .nil else .auth

/-- The end of a turn in which all is read and nothing waits. -/
theorem tail_end (t v : Bytes) (n : Nat) (d : Ds) (r : Nat) (out : Bytes) (hp : d.ptx = 0) (hc : d.complete = true) (hx : d.x.take 16 = t)
    (hv : (blk d.xk d.cu []).2 = v) : ∃ d', tailTurn n d r out = .done d' out (verdict t v) ∧ Fin d' := by
  have e0 : d.x.drop 0 ++ d.x.drop (d.x.length - 0) = d.x := by simp
  have ck : (cryptBlock d.xk [] d.cu true).1 = (cryptBlock d.xk [] d.cu false).1 := by
    have := congrArg Prod.fst (cryptBlock_inv d.xk [] d.cu (by simp))
    have e : (cryptBlock d.xk [] d.cu false).2 = [] := List.length_eq_zero_iff.mp (cryptBlock_len _ _ _ _ (by simp))
    rw [e] at this
    exact this
  unfold tailTurn
  simp only [hp, gt_iff_lt, Nat.lt_irrefl, false_and, if_false, e0, hc, and_self, if_true, List.take_zero, List.append_nil, ck]
  subst hv hx
  simp only [verdict, blk]
  exact ⟨_, rfl, rfl, rfl⟩

/-- A turn from a state with something waiting. -/
theorem tail_pend (t v : Bytes) (ht : t.length = 16) (n : Nat) (hn : 0 < n) (pend P : Bytes) (d : Ds) (r : Nat) (out : Bytes) (h : Pend pend P t v d) :
    (r < pend.length ∧ ∃ d', tailTurn n d r out = .done d' (out ++ pend.take r) .nil ∧ Pend (pend.drop r) P t v d') ∨
    (pend.length ≤ r ∧ P = [] ∧ ∃ d', tailTurn n d r out = .done d' (out ++ pend) (verdict t v) ∧ Fin d') ∨
    (pend.length ≤ r ∧ ∃ d', tailTurn n d r out = .again d' (r - pend.length) (out ++ pend) ∧ Idle P t v d') := by
  have hpos : 0 < pend.length := List.length_pos_iff.mpr h.pos
  have hpl := h.pl
  have hxl := h.xl
  have hpt := h.pt
  have hnx := h.nx
  have hxp := h.xp
  by_cases hr : r < pend.length
  · left
    refine ⟨hr, ?_⟩
    have nn : (if d.ptx > 0 ∧ r > 0 then min r d.ptx else 0) = r := by
      rw [hpt]
      split
      · omega
      · omega
    have ht : d.x.take r = pend.take r := by
      rw [← hxp, List.take_take, Nat.min_eq_left (by omega)]
    unfold tailTurn
    simp only [nn, ht]
    rw [if_neg (by omega), if_pos (by left; omega)]
    refine ⟨_, rfl, ?_, ?_, ?_, ?_, hnx, h.cu, h.sc, ?_, ?_, h.com, h.tg⟩
    · show (d.x.drop r ++ d.x.drop (d.x.length - r)).length = 40
      rw [List.length_append, List.length_drop, List.length_drop]; omega
    · show d.ptx - r = _
      rw [List.length_drop, hpt]
    · intro e
      have := congrArg List.length e
      rw [List.length_drop, List.length_nil] at this
      omega
    · rw [List.length_drop]; omega
    · show (d.x.drop r ++ _).take (pend.drop r).length = _
      rw [List.length_drop, List.take_append_of_le_length (by rw [List.length_drop]; omega), ← List.drop_take, hxp]
    · show ((d.x.drop r ++ _).drop (pend.drop r).length).take 16 ++ _ = _
      have : ((d.x.drop r ++ d.x.drop (d.x.length - r)).drop (pend.drop r).length).take 16 = (d.x.drop pend.length).take 16 := by
        rw [List.length_drop, List.drop_append_of_le_length (by rw [List.length_drop]; omega), List.drop_drop,
          List.take_append_of_le_length (by rw [List.length_drop]; omega)]
        congr 2
        omega
      rw [this]
      exact h.st
  · right
    have nn : (if d.ptx > 0 ∧ r > 0 then min r d.ptx else 0) = pend.length := by
      rw [hpt, if_pos (by omega)]
      omega
    have h16 : (d.x.drop pend.length ++ d.x.drop (d.x.length - pend.length)).take 16 = (d.x.drop pend.length).take 16 :=
      List.take_append_of_le_length (by rw [List.length_drop]; omega)
    have z : d.ptx - pend.length = 0 := by omega
    by_cases hc : d.complete = true
    · left
      obtain ⟨hrest, hPn⟩ := h.com hc
      refine ⟨by omega, hPn, ?_⟩
      have hst := h.st
      have htg := h.tg
      rw [hPn] at hst htg
      rw [hrest, List.append_nil] at hst
      have hst' : (d.x.drop pend.length).take 16 = t := hst
      have c0 : ¬ ((0 : Byte) = 0x80) := by decide
      unfold tailTurn
      simp only [nn, hxp, z, hc, and_self, if_true, h16, hst', h.cu, c0, if_false]
      subst htg
      simp only [verdict, chunks_nil, blk, c0, if_false]
      exact ⟨_, rfl, rfl, rfl⟩
    · right
      refine ⟨by omega, ?_⟩
      unfold tailTurn
      simp only [nn, hxp, z]
      rw [if_neg (by intro h; exact hc h.2), if_neg (by omega)]
      refine ⟨_, rfl, ?_, rfl, by simpa using hc, by show d.nx ≤ 16; omega, h.sc, ?_, ?_⟩
      · show (d.x.drop pend.length ++ d.x.drop (d.x.length - pend.length)).length = 40
        rw [List.length_append, List.length_drop, List.length_drop]; omega
      · show (d.x.drop pend.length ++ d.x.drop (d.x.length - pend.length)).take d.nx ++ d.src.rest = (blk d.xk d.cu _).1 ++ t
        rw [hnx, h16, h.cu]
        exact h.st
      · show (blk d.xk d.cu _).2 = v
        rw [h.cu]
        exact h.tg

theorem turn_idle_nil (t v : Bytes) (ht : t.length = 16) (n : Nat) (d : Ds) (r : Nat) (out : Bytes) (h : Idle [] t v d) :
    ∃ d', turn n d r out = .done d' out (verdict t v) ∧ Fin d' := by
  obtain ⟨f1, f2⟩ := fillAll_filled [] t v d h
  obtain ⟨g1, g2, g3, g4⟩ := filled_nil t v ht n d _ h f2
  unfold turn
  rw [if_pos h.pt]
  simp only []
  rw [if_neg f1, g1]
  exact tail_end t v n _ r out (f2.pt.trans h.pt) g2 g4 (by rw [f2.xk, f2.cu]; exact h.tg)

theorem turn_idle_cons (P t v : Bytes) (ht : t.length = 16) (hP : P ≠ []) (n : Nat) (hn : n ≠ 0) (d : Ds) (r : Nat) (out : Bytes) (h : Idle P t v d) :
    ∃ d', turn n d r out = tailTurn n d' r out ∧ Pend (P.take 24) (P.drop 24) t v d' := by
  obtain ⟨f1, f2⟩ := fillAll_filled P t v d h
  obtain ⟨g1, g2, g3, g4, g5, g6⟩ := filled_block P t v ht hP d _ h f2
  have hp : 0 < P.length := List.length_pos_iff.mpr hP
  unfold turn
  rw [if_pos h.pt]
  simp only []
  rw [if_neg f1]
  refine ⟨_, rfl, ?_⟩
  unfold decBlock
  rw [if_pos g1]
  simp only [hn, ne_eq, not_false_eq_true, if_true, g3]
  have hx := f2.xl
  have hn' := f2.nx
  have hkl : (P.take 24).length ≤ 24 := by rw [List.length_take]; omega
  refine ⟨?_, rfl, ?_, hkl, rfl, rfl, f2.sc, ?_, ?_, fun hc => ⟨f2.com hc, g6 hc⟩, g5⟩
  · show (P.take 24 ++ _).length = 40
    rw [List.length_append, List.length_drop]; omega
  · intro e
    have := congrArg List.length e
    rw [List.length_take, List.length_nil] at this
    omega
  · exact List.take_left
  · show ((P.take 24 ++ _).drop (P.take 24).length).take 16 ++ _ = _
    rw [List.drop_left, g2]
    exact g4

theorem turn_idle_zero (P t v : Bytes) (ht : t.length = 16) (hP : P ≠ []) (d : Ds) (h : Idle P t v d) :
    (∃ d', turn 0 d 0 [] = .done d' [] (verdict t v) ∧ Fin d') ∨
    (∃ d', turn 0 d 0 [] = .again d' 0 [] ∧ Idle (P.drop 24) t v d') := by
  obtain ⟨f1, f2⟩ := fillAll_filled P t v d h
  obtain ⟨g1, g2, g3, g4, g5, g6⟩ := filled_block P t v ht hP d _ h f2
  have hx := f2.xl
  have hn' := f2.nx
  have hp := f2.pt
  rw [h.pt] at hp
  have hkl : (P.take 24).length ≤ 24 := by rw [List.length_take]; omega
  have h16 : ((fillAll d).1.x.drop (P.take 24).length ++ (fillAll d).1.x.drop ((fillAll d).1.x.length - (P.take 24).length)).take 16 =
      ((fillAll d).1.x.drop ((fillAll d).1.nx - 16)).take 16 := by
    rw [List.take_append_of_le_length (by rw [List.length_drop]; omega), g2]
  unfold turn
  rw [if_pos h.pt]
  simp only []
  rw [if_neg f1]
  unfold decBlock
  rw [if_pos g1]
  simp only [ne_eq, not_true_eq_false, if_false, g3]
  by_cases hc : (fillAll d).1.complete = true
  · left
    rw [g6 hc] at g4 g5
    rw [f2.com hc, List.append_nil] at g4
    exact tail_end t v 0 _ 0 [] hp hc (h16.trans g4) g5
  · right
    unfold tailTurn
    simp only [hp, gt_iff_lt, Nat.lt_irrefl, false_and, if_false, hc, and_false, List.take_zero, List.append_nil]
    rw [if_neg (by simp)]
    refine ⟨_, rfl, ?_, rfl, by simpa using hc, by show 16 ≤ 16; omega, f2.sc, ?_, g5⟩
    · show (_ ++ _ : Bytes).length = 40
      simp only [List.length_append, List.length_drop]; omega
    · show (List.drop 0 (_ ++ _ : Bytes) ++ List.drop _ _).take 16 ++ _ = _
      rw [List.drop_zero, List.take_append_of_le_length (by simp only [List.length_append, List.length_drop]; omega), h16]
      exact g4

end Verif.Xoodyak
