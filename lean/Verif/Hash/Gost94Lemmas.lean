import Verif.Hash.Gost94
import Verif.Hash.Gost94Spec
namespace Verif.Hash.Gost94
open Verif.Cipher

theorem ext32 (a b : Bytes) (ha : a.length = 32) (hb : b.length = 32) (h : ∀ i < 32, a.getD i 0 = b.getD i 0) : a = b := by
  apply List.ext_getElem (by omega)
  intro i h1 h2
  have := h i (by omega)
  rw [List.getD_eq_getElem?_getD, List.getD_eq_getElem?_getD, List.getElem?_eq_getElem h1, List.getElem?_eq_getElem h2] at this
  simpa using this

theorem getD_drop (l : Bytes) (n i : Nat) : (l.drop n).getD i 0 = l.getD (n + i) 0 := by
  simp [List.getD_eq_getElem?_getD]

theorem part8 (Y : Bytes) (n : Nat) (h : n + 8 ≤ Y.length) : (Y.drop n).take 8 = (List.range 8).map fun i => Y.getD (n + i) 0 := by
  apply List.ext_getElem (by simp; omega)
  intro i h1 h2
  have hi : i < 8 := by simpa using h2
  simp [List.getD_eq_getElem?_getD, List.getElem?_eq_getElem (show n + i < Y.length by omega)]

theorem part2 (Y : Bytes) (n : Nat) (h : n + 2 ≤ Y.length) : (Y.drop n).take 2 = [Y.getD n 0, Y.getD (n + 1) 0] := by
  apply List.ext_getElem (by simp; omega)
  intro i h1 h2
  have hi : i < 2 := by simpa using h2
  match i, hi with
  | 0, _ => simp [List.getD_eq_getElem?_getD, List.getElem?_eq_getElem (show n < Y.length by omega)]
  | 1, _ => simp [List.getD_eq_getElem?_getD, List.getElem?_eq_getElem (show n + 1 < Y.length by omega)]

theorem fA_eq (Y : Bytes) (h : Y.length = 32) : fA Y = Spec.A Y := by
  rw [fA, Spec.A]
  have h24 : Y.take 24 = Spec.y 4 Y ++ Spec.y 3 Y ++ Spec.y 2 Y := by
    simp only [Spec.y, Nat.reduceMul, Nat.reduceSub, List.drop_zero, List.append_assoc]
    rw [show 24 = 8 + (8 + 8) from rfl, List.take_add, List.take_add, List.drop_drop]
  rw [h24, List.append_assoc, List.append_assoc, List.append_assoc]
  congr 1
  rw [Spec.y, Spec.y, part8 _ _ (by omega), part8 _ _ (by omega)]
  simp only [xorb, List.zipWith_map, List.zipWith_self]
  apply List.map_congr_left
  intro i _
  rw [BitVec.xor_comm]

theorem A_length (Y : Bytes) (h : Y.length = 32) : (Spec.A Y).length = 32 := by
  rw [← fA_eq Y h]; simp [fA, h]

theorem fP_eq (Y : Bytes) : fP Y = Spec.P Y := by
  have : [0, 8, 16, 24, 1, 9, 17, 25, 2, 10, 18, 26, 3, 11, 19, 27, 4, 12, 20, 28, 5, 13, 21, 29, 6, 14, 22, 30, 7, 15, 23, 31] =
    (List.range 32).map fun j => 32 - Spec.φ (32 - j) := by decide
  rw [fP, this, List.map_map]; rfl

theorem fChi_eq (Y : Bytes) (h : Y.length = 32) : fChi Y = Spec.ψ Y := by
  rw [fChi, Spec.ψ]
  simp only [Spec.w, Nat.reduceMul, Nat.reduceSub]
  rw [part2 _ _ (by omega), part2 _ _ (by omega), part2 _ _ (by omega), part2 _ _ (by omega), part2 _ _ (by omega), part2 _ _ (by omega)]
  simp only [xorb_cons, xorb_nil_left, Nat.reduceAdd]
  congr 2
  · ac_rfl
  · congr 1; ac_rfl

theorem ψ_length (Y : Bytes) (h : Y.length = 32) : (Spec.ψ Y).length = 32 := by
  rw [← fChi_eq Y h]; simp [fChi, h]

theorem ψn_length (n : Nat) (Y : Bytes) (h : Y.length = 32) : (Spec.ψn n Y).length = 32 := by
  induction n with
  | zero => exact h
  | succ n ih => exact ψ_length _ ih

theorem ψn_comm (n : Nat) (Y : Bytes) : Spec.ψn n (Spec.ψ Y) = Spec.ψ (Spec.ψn n Y) := by
  induction n with
  | zero => rfl
  | succ n ih => rw [Spec.ψn, ih, Spec.ψn]

theorem times_eq (n : Nat) : ∀ Y : Bytes, Y.length = 32 → times fChi n Y = Spec.ψn n Y := by
  induction n with
  | zero => intro Y _; rfl
  | succ n ih => intro Y h; rw [times, fChi_eq Y h, ih _ (ψ_length Y h), ψn_comm, Spec.ψn]

theorem P_length (Y : Bytes) : (Spec.P Y).length = 32 := by simp [Spec.P]

/-- The cipher returns whole blocks. -/
def IsE (E : Bytes → Bytes → Bytes) : Prop := ∀ k x : Bytes, k.length = 32 → x.length = 8 → (E k x).length = 8

theorem enc_length (E : Bytes → Bytes → Bytes) (hE : IsE E) (k h : Bytes) (hk : k.length = 32) (hh : h.length = 8) : (Spec.enc E k h).length = 8 := by
  rw [Spec.enc, List.length_reverse, hE _ _ (by simpa using hk) (by simpa using hh)]

theorem y_length (i : Nat) (Y : Bytes) (h : Y.length = 32) (h1 : 1 ≤ i) (h4 : i ≤ 4) : (Spec.y i Y).length = 8 := by
  simp [Spec.y, h]; omega

theorem c3_eq : c3 = Spec.C3 := by decide
theorem c2_eq : c2 = Spec.C2 := by decide

theorem next_length (C : Bytes) (hC : C.length = 32) (uv : Bytes × Bytes) (h1 : uv.1.length = 32) (h2 : uv.2.length = 32) :
    (Spec.next C uv).1.length = 32 ∧ (Spec.next C uv).2.length = 32 := by
  simp [Spec.next, A_length _ h1, hC, A_length _ (A_length _ h2)]

theorem next_u (uv : Bytes × Bytes) (h : uv.1.length = 32) (c C : Bytes) (hc : c = C) : xorb (fA uv.1) c = (Spec.next C uv).1 := by
  rw [fA_eq _ h, hc]; rfl

theorem next_v (uv : Bytes × Bytes) (h : uv.2.length = 32) (C : Bytes) : fA (fA uv.2) = (Spec.next C uv).2 := by
  rw [fA_eq _ h, fA_eq _ (A_length _ h)]; rfl

theorem mix_eq (H M S : Bytes) (hH : H.length = 32) (hM : M.length = 32) (hS : S.length = 32) :
    times fChi 61 (xorb (fChi (xorb (times fChi 12 S) M)) H) = Spec.ψn 61 (xorb H (Spec.ψ (xorb M (Spec.ψn 12 S)))) ∧
    (Spec.ψn 61 (xorb H (Spec.ψ (xorb M (Spec.ψn 12 S))))).length = 32 := by
  have l1 := ψn_length 12 S hS
  rw [times_eq 12 S hS]
  generalize Spec.ψn 12 S = T at l1
  have lx : (xorb M T).length = 32 := by rw [xorb_length, hM, l1]; rfl
  have l2 := ψ_length (xorb M T) lx
  rw [xorb_comm T M, fChi_eq _ lx]
  generalize Spec.ψ (xorb M T) = R at l2
  have ly : (xorb H R).length = 32 := by rw [xorb_length, hH, l2]; rfl
  rw [xorb_comm R H, times_eq 61 _ ly]
  exact ⟨rfl, ψn_length 61 _ ly⟩

theorem step_eq (E : Bytes → Bytes → Bytes) (hE : IsE E) (H M : Bytes) (hH : H.length = 32) (hM : M.length = 32) :
    step E H M = Spec.f E H M ∧ (Spec.f E H M).length = 32 := by
  have n2 := next_length Spec.C2 (by decide) (H, M) hH hM
  have n3 := next_length Spec.C3 (by decide) _ n2.1 n2.2
  have n4 := next_length Spec.C2 (by decide) _ n3.1 n3.2
  have lS : (Spec.enc E (Spec.key (Spec.next Spec.C2 (Spec.next Spec.C3 (Spec.next Spec.C2 (H, M))))) (Spec.y 4 H) ++
      Spec.enc E (Spec.key (Spec.next Spec.C3 (Spec.next Spec.C2 (H, M)))) (Spec.y 3 H) ++
      Spec.enc E (Spec.key (Spec.next Spec.C2 (H, M))) (Spec.y 2 H) ++ Spec.enc E (Spec.key (H, M)) (Spec.y 1 H)).length = 32 := by
    simp [enc_length E hE _ _ (P_length _) (y_length _ H hH _ _), Spec.key]
  have u2 := next_u (H, M) hH c2 _ c2_eq
  have v2 := next_v (H, M) hM Spec.C2
  have u3 := next_u _ n2.1 c3 _ c3_eq
  have v3 := next_v _ n2.2 Spec.C3
  have u4 := next_u _ n3.1 c2 _ c2_eq
  have v4 := next_v _ n3.2 Spec.C2
  simp only at u2 v2
  have key (uv : Bytes × Bytes) : fP (xorb uv.1 uv.2) = Spec.key uv := by rw [fP_eq]; rfl
  have part (K : Bytes) (lo : Nat) (hlo : lo ≤ 24) (i : Nat) (hi : 32 - 8 * i = lo) : encPart E K.reverse H lo = Spec.enc E K (Spec.y i H) := by
    rw [encPart, Spec.enc, Spec.y, hi]
  have q := mix_eq H M _ hH hM lS
  refine ⟨?_, q.2⟩
  simp only [step]
  rw [u2, v2, u3, v3, u4, v4, key, key, key, show fP (xorb H M) = Spec.key (H, M) from key (H, M)]
  rw [part _ 24 (by decide) 1 rfl, part _ 16 (by decide) 2 rfl, part _ 8 (by decide) 3 rfl, part _ 0 (by decide) 4 rfl]
  exact q.1

/-! ### the digest -/

structure Good (s : St) (v : Bytes × Nat × Nat) : Prop where
  h : s.hsh = v.1
  hl : v.1.length = 32
  n : s.size.toNat = v.2.1
  chk : s.chk = v.2.2
  lt : v.2.2 < 2 ^ 256

theorem chkAdd_eq (c : Nat) (b : Bytes) (hc : c < 2 ^ 256) (hb : b.length = 32) : chkAdd c b.reverse = (c + leN b) % 2 ^ 256 := by
  have h := leN_lt b
  rw [hb, show (256 : Nat) ^ 32 = 2 ^ 256 by decide] at h
  rw [chkAdd, List.reverse_reverse, Nat.add_comm c]
  split
  · rename_i hge
    rw [Nat.mod_eq_sub_mod hge, Nat.mod_eq_of_lt (by omega)]
  · rw [Nat.mod_eq_of_lt (by omega)]

theorem block_good (E : Bytes → Bytes → Bytes) (hE : IsE E) (s : St) (v : Bytes × Nat × Nat) (b : Bytes) (hb : b.length = 32) (q : Good s v) :
    Good (block E s b) (Spec.step E 64 v b) := by
  obtain ⟨e, l⟩ := step_eq E hE v.1 b.reverse q.hl (by simpa using hb)
  refine ⟨?_, l, ?_, ?_, Nat.mod_lt _ (by decide)⟩
  · show step E s.hsh b.reverse = _
    rw [q.h, e]; rfl
  · show (s.size + 256).toNat = (v.2.1 + 256) % 2 ^ 64
    rw [BitVec.toNat_add, q.n]; rfl
  · show chkAdd s.chk b.reverse = (v.2.2 + leN b) % 2 ^ 256
    rw [q.chk, chkAdd_eq _ _ q.lt hb]

theorem fold_good (E : Bytes → Bytes → Bytes) (hE : IsE E) (L : List Bytes) (hL : ∀ b ∈ L, b.length = 32) :
    ∀ (s : St) (v : Bytes × Nat × Nat), Good s v → Good (L.foldl (block E) s) (L.foldl (Spec.step E 64) v) := by
  induction L with
  | nil => intro s v h; exact h
  | cons b L ih =>
    intro s v h
    have h1 := block_good E hE s v b (hL b (List.mem_cons_self)) h
    have h2 := ih (fun c hc => hL c (List.mem_cons_of_mem _ hc)) (block E s b) (Spec.step E 64 v b) h1
    simp only [List.foldl_cons]; exact h2

structure Holds (E : Bytes → Bytes → Bytes) (d : D) (M : Bytes) : Prop where
  good : Good d.st ((fullBlocks 32 M).foldl (Spec.step E 64) (hx 32 0, 0, 0))
  buf : d.buf = tailOf 32 M

theorem holds_new (E : Bytes → Bytes → Bytes) : Holds E new [] := by
  refine ⟨?_, by simp [tailOf, new]⟩
  have : Good iv (hx 32 0, 0, 0) := ⟨by decide, by decide, rfl, rfl, by decide⟩
  simpa [fullBlocks, new] using this

theorem write_holds (E : Bytes → Bytes → Bytes) (hE : IsE E) (d : D) (M p : Bytes) (h : Holds E d M) :
    ∃ d', write E d p = .ok d' ∧ Holds E d' (M ++ p) := by
  rw [write, appWrite, appLoop_eq 32 (by decide) (block E) _ _ _ (Nat.lt_succ_self _)]
  refine ⟨_, rfl, ?_, ?_⟩
  · show Good (absorb 32 (block E) d.st (d.buf ++ p)) _
    rw [h.buf, fullBlocks_split 32 (by decide), List.foldl_append]
    exact fold_good E hE _ (fullBlocks_mem 32 _) _ _ h.good
  · show tailOf 32 (d.buf ++ p) = _
    rw [h.buf, ← tailOf_append 32 (by decide)]

theorem leN_zeros (n : Nat) : leN (List.replicate n 0#8) = 0 := by
  induction n with
  | zero => rfl
  | succ n ih => rw [List.replicate_succ, leN, ih]; rfl

theorem leN_pad (t : Bytes) (n : Nat) : leN (t ++ List.replicate n 0#8) = leN t := by
  induction t with
  | nil => rw [List.nil_append, leN_zeros]; rfl
  | cons b t ih => rw [List.cons_append, leN, ih, leN]

theorem last_good (E : Bytes → Bytes → Bytes) (hE : IsE E) (d : D) (v : Bytes × Nat × Nat) (q : Good d.st v) (hb : d.buf.length < 32) :
    Good (if d.buf.length ≠ 0 then
        (⟨d.st.size + BitVec.ofNat 64 d.buf.length * 8, step E d.st.hsh (copyInto (List.replicate 32 0#8) d.buf).reverse,
          chkAdd d.st.chk (copyInto (List.replicate 32 0#8) d.buf).reverse⟩ : St) else d.st) (Spec.last E 64 v d.buf) := by
  by_cases h0 : d.buf = []
  · rw [if_neg (by simp [h0]), Spec.last, if_pos h0]; exact q
  · have hne : d.buf.length ≠ 0 := by simpa using h0
    rw [if_pos hne, Spec.last, if_neg h0]
    have hm : copyInto (List.replicate 32 0#8) d.buf = d.buf ++ List.replicate (32 - d.buf.length) 0#8 := by
      rw [copyInto, List.length_replicate, List.take_of_length_le (by omega), List.drop_replicate]
    have hml : (d.buf ++ List.replicate (32 - d.buf.length) 0#8).length = 32 := by simp; omega
    rw [hm]
    obtain ⟨e, l⟩ := step_eq E hE v.1 _ q.hl (show (d.buf ++ List.replicate (32 - d.buf.length) 0#8).reverse.length = 32 by rw [List.length_reverse]; exact hml)
    refine ⟨?_, l, ?_, ?_, Nat.mod_lt _ (by decide)⟩
    · simp only; rw [q.h, e]
    · have h8 : (8 : BitVec 64).toNat = 8 := rfl
      simp only
      rw [BitVec.toNat_add, BitVec.toNat_mul, BitVec.toNat_ofNat, q.n, h8]; omega
    · simp only; rw [q.chk, chkAdd_eq _ _ q.lt hml, leN_pad]

theorem hx_64 (n : Nat) (h : n < 2 ^ 64) : List.replicate 24 0#8 ++ hx 8 n = hx 32 n := by
  have h0 : leBytes 24 0 = List.replicate 24 0#8 := by decide
  have e : leBytes 32 n = leBytes 8 n ++ List.replicate 24 0#8 := by
    rw [show 32 = 8 + 24 from rfl, leBytes_add, Nat.div_eq_of_lt (by simpa using h), h0]
  rw [hx, hx, e, List.reverse_append, List.reverse_replicate]

theorem checkSum_eq (E : Bytes → Bytes → Bytes) (hE : IsE E) (d : D) (M : Bytes) (h : Holds E d M) :
    checkSum E d = .ok (Spec.hash E 64 M) := by
  have hb : d.buf.length < 32 := by rw [h.buf, tailOf_length]; exact Nat.mod_lt _ (by decide)
  have q := last_good E hE d _ h.good hb
  rw [checkSum, Spec.hash, ← h.buf]
  simp only
  generalize (fullBlocks 32 M).foldl (Spec.step E 64) (hx 32 0, 0, 0) = v at q
  generalize Spec.last E 64 v d.buf = v' at q
  generalize (if d.buf.length ≠ 0 then
        (⟨d.st.size + BitVec.ofNat 64 d.buf.length * 8, step E d.st.hsh (copyInto (List.replicate 32 0#8) d.buf).reverse,
          chkAdd d.st.chk (copyInto (List.replicate 32 0#8) d.buf).reverse⟩ : St) else d.st) = s at q
  have hc : ¬ s.chk ≥ 2 ^ 256 := by rw [q.chk]; exact Nat.not_le.mpr q.lt
  rw [if_neg hc, q.h, hx_64 _ s.size.isLt, q.n, q.chk]
  have hxl (m : Nat) : (hx 32 m).length = 32 := by simp [hx]
  obtain ⟨e1, l1⟩ := step_eq E hE v'.1 (hx 32 v'.2.1) q.hl (hxl _)
  obtain ⟨e2, l2⟩ := step_eq E hE _ (hx 32 v'.2.2) l1 (hxl _)
  rw [e1, e2]

/-! ### the counter -/

theorem lt256 (x : Nat) (h : x < 2 ^ 64) : x < 2 ^ 256 :=
  Nat.lt_of_lt_of_le h (Nat.pow_le_pow_right (by decide) (show 64 ≤ 256 by decide))

theorem step_counter (E : Bytes → Bytes → Bytes) (L : List Bytes) : ∀ (v : Bytes × Nat × Nat), v.2.1 + 256 * L.length < 2 ^ 64 →
    L.foldl (Spec.step E 64) v = L.foldl (Spec.step E 256) v ∧ (L.foldl (Spec.step E 256) v).2.1 = v.2.1 + 256 * L.length := by
  induction L with
  | nil => intro v _; simp only [List.foldl_nil, List.length_nil, Nat.mul_zero, Nat.add_zero, and_self]
  | cons b L ih =>
    intro v h
    simp only [List.length_cons] at h
    have hlt : v.2.1 + 256 < 2 ^ 64 := Nat.lt_of_le_of_lt (Nat.add_le_add_left (Nat.le_mul_of_pos_right 256 (Nat.succ_pos L.length)) _) h
    have e1 : (v.2.1 + 256) % 2 ^ 64 = v.2.1 + 256 := Nat.mod_eq_of_lt hlt
    have e2 : (v.2.1 + 256) % 2 ^ 256 = v.2.1 + 256 := Nat.mod_eq_of_lt (lt256 _ hlt)
    have es : Spec.step E 64 v b = Spec.step E 256 v b := by simp only [Spec.step, e1, e2]
    have en : (Spec.step E 256 v b).2.1 = v.2.1 + 256 := e2
    obtain ⟨h1, h2⟩ := ih (Spec.step E 256 v b) (by rw [en, Nat.add_assoc, Nat.add_comm 256, ← Nat.mul_succ]; exact h)
    simp only [List.foldl_cons, es, List.length_cons]
    refine ⟨h1, ?_⟩
    rw [h2, en]; omega

theorem hash_counter (E : Bytes → Bytes → Bytes) (M : Bytes) (h : M.length < 2 ^ 61) : Spec.hash E 64 M = Spec.gost94 E M := by
  have hl : (fullBlocks 32 M).length = M.length / 32 := by simp [fullBlocks]
  have hm : (tailOf 32 M).length = M.length % 32 := tailOf_length _ _
  obtain ⟨h1, h2⟩ := step_counter E (fullBlocks 32 M) (hx 32 0, 0, 0) (by rw [hl]; simp only; omega)
  unfold Spec.gost94 Spec.hash
  rw [h1]
  generalize (fullBlocks 32 M).foldl (Spec.step E 256) _ = v at h2
  have hN : (v.2.1 + 8 * (tailOf 32 M).length) % 2 ^ 64 = (v.2.1 + 8 * (tailOf 32 M).length) % 2 ^ 256 := by
    have hb : v.2.1 + 8 * (tailOf 32 M).length < 2 ^ 64 := by rw [h2, hl, hm]; simp only; omega
    rw [Nat.mod_eq_of_lt hb, Nat.mod_eq_of_lt (lt256 _ hb)]
  have hf : Spec.last E 64 v (tailOf 32 M) = Spec.last E 256 v (tailOf 32 M) := by
    unfold Spec.last; rw [hN]
  simp only [hf]

end Verif.Hash.Gost94
