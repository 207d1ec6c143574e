import Verif.Kdf.P12
import Verif.Kdf.P12Spec
namespace Verif.Kdf.P12
open Verif.Cipher Verif.Hash

theorem rep_getD (x : Bytes) (hx : 0 < x.length) : ∀ (n i : Nat), i < n * x.length → (rep n x).getD i 0 = x.getD (i % x.length) 0
  | 0, i, h => by simp at h
  | n + 1, i, h => by
    have e : rep (n + 1) x = x ++ rep n x := by simp [rep, List.replicate_succ]
    rw [e, List.getD_eq_getElem?_getD]
    by_cases hi : i < x.length
    · rw [List.getElem?_append_left hi, Nat.mod_eq_of_lt hi, List.getD_eq_getElem?_getD]
    · have hi' : x.length ≤ i := Nat.le_of_not_lt hi
      rw [List.getElem?_append_right hi', ← List.getD_eq_getElem?_getD, rep_getD x hx n (i - x.length) (by rw [Nat.succ_mul] at h; omega),
        Nat.mod_eq_sub_mod hi']

theorem rep_length (n : Nat) (x : Bytes) : (rep n x).length = n * x.length := by
  induction n with
  | zero => simp [rep]
  | succ n ih =>
    have e : rep (n + 1) x = x ++ rep n x := by simp [rep, List.replicate_succ]
    rw [e, List.length_append, ih, Nat.succ_mul, Nat.add_comm]

theorem take_rep (x : Bytes) (hx : 0 < x.length) (n k : Nat) (h : k ≤ n * x.length) : (rep n x).take k = Spec.cycle x k := by
  apply List.ext_getElem
  · rw [List.length_take, rep_length, Nat.min_eq_left h, Spec.cycle, List.length_map, List.length_range]
  · intro i h1 h2
    have hik : i < k := by simpa [Spec.cycle] using h2
    have := rep_getD x hx n i (by omega)
    rw [List.getElem_take]
    have hl : i < (rep n x).length := by rw [rep_length]; omega
    rw [List.getD_eq_getElem?_getD, List.getElem?_eq_getElem hl, Option.getD_some] at this
    rw [this]; simp [Spec.cycle]

theorem cycle_length (x : Bytes) (n : Nat) : (Spec.cycle x n).length = n := by simp [Spec.cycle]

theorem fill_eq (x : Bytes) (v : Nat) (hv : 0 < v) : fillWithRepeats x v = Spec.stretch v x := by
  rw [fillWithRepeats, Spec.stretch]
  by_cases h : x.length = 0
  · rw [if_pos h, h]
    have : (0 + v - 1) / v = 0 := Nat.div_eq_of_lt (by omega)
    rw [this, Nat.mul_zero]; rfl
  · rw [if_neg h]
    exact take_rep x (Nat.pos_of_ne_zero h) _ _ (ceil_mul _ _ (Nat.pos_of_ne_zero h))

theorem stretch_length (x : Bytes) (v : Nat) : (Spec.stretch v x).length = v * ((x.length + v - 1) / v) := cycle_length _ _

theorem iter_comm (f : Bytes → Bytes) (n : Nat) (x : Bytes) : Spec.iter f n (f x) = f (Spec.iter f n x) := by
  induction n with
  | zero => rfl
  | succ n ih => rw [Spec.iter, ih, Spec.iter]

theorem iterHash_eq (H : HashFn) : ∀ (n : Nat) (x : Bytes), iterHash H n x = Spec.iter H.f n x
  | 0, x => rfl
  | n + 1, x => by rw [iterHash, iterHash_eq H n, iter_comm]; rfl

theorem growB_eq (A : Bytes) (hA : 0 < A.length) (v : Nat) : ∀ (fuel m : Nat), v - m * A.length < fuel →
    ∃ n, growB A v fuel (rep m A) = .ok (rep n A) ∧ v ≤ n * A.length
  | 0, m, h => by omega
  | fuel + 1, m, h => by
    rw [growB, rep_length]
    by_cases hc : m * A.length < v
    · rw [if_pos hc]
      have e : rep m A ++ A = rep (m + 1) A := by simp [rep, List.replicate_succ']
      rw [e]
      exact growB_eq A hA v fuel (m + 1) (by rw [Nat.succ_mul]; omega)
    · rw [if_neg hc]; exact ⟨m, rfl, by omega⟩

/-! ### the numbers -/

theorem minBytes_spec : ∀ (fuel n : Nat), n < fuel → beN (minBytes fuel n) = n ∧ (∀ b t, minBytes fuel n = b :: t → b ≠ 0)
  | 0, n, h => by omega
  | fuel + 1, n, h => by
    rw [minBytes]
    by_cases h0 : n = 0
    · rw [if_pos h0]; exact ⟨h0 ▸ rfl, fun b t e => by cases e⟩
    · rw [if_neg h0]
      obtain ⟨h1, h2⟩ := minBytes_spec fuel (n / 256) (by omega)
      constructor
      · rw [beN, List.reverse_append]
        show leN (BitVec.ofNat 8 n :: (minBytes fuel (n / 256)).reverse) = n
        rw [leN]
        have : leN (minBytes fuel (n / 256)).reverse = n / 256 := h1
        rw [this, BitVec.toNat_ofNat]; omega
      · intro b t e
        cases hm : minBytes fuel (n / 256) with
        | nil =>
          rw [hm] at e h1
          have hz : n / 256 = 0 := h1.symm.trans rfl
          simp only [List.nil_append, List.cons.injEq] at e
          rw [← e.1]
          intro hb
          have := congrArg BitVec.toNat hb
          rw [BitVec.toNat_ofNat] at this
          have h00 : (0 : BitVec 8).toNat = 0 := rfl
          omega
        | cons c s =>
          rw [hm] at e
          simp only [List.cons_append, List.cons.injEq] at e
          rw [← e.1]; exact h2 c s hm

theorem beN_append (a b : Bytes) : beN (a ++ b) = beN a * 256 ^ b.length + beN b := by
  have aux (l r : Bytes) : leN (l ++ r) = leN l + 256 ^ l.length * leN r := by
    induction l with
    | nil => simp [leN]
    | cons c l ih => rw [List.cons_append, leN, ih, leN, List.length_cons, Nat.pow_succ, Nat.mul_add, Nat.mul_comm (256 ^ l.length) 256, Nat.mul_assoc]; omega
  rw [beN, List.reverse_append, aux, List.length_reverse, Nat.mul_comm, Nat.add_comm]; rfl

theorem beN_lt (a : Bytes) : beN a < 256 ^ a.length := by
  have := leN_lt a.reverse
  rwa [List.length_reverse] at this

theorem hx_beN (a : Bytes) : hx a.length (beN a) = a := by
  have := leBytes_leN a.reverse
  rw [List.length_reverse] at this
  rw [hx, beN, this, List.reverse_reverse]

theorem beN_zeros (n : Nat) : beN (List.replicate n 0#8) = 0 := by
  rw [beN, List.reverse_replicate]
  induction n with
  | zero => rfl
  | succ n ih => rw [List.replicate_succ, leN, ih]; rfl

theorem newBlock_eq (v B : Nat) (Ij : Bytes) : newBlock v B Ij = hx v ((beN Ij + B + 1) % 256 ^ v) := by
  rw [newBlock]
  generalize beN Ij + B + 1 = n
  obtain ⟨h1, _⟩ := minBytes_spec (n + 1) n (Nat.lt_succ_self n)
  generalize minBytes (n + 1) n = M at h1
  by_cases hl : M.length > v
  · rw [if_pos hl]
    have hd : (M.drop (M.length - v)).length = v := by rw [List.length_drop]; omega
    rw [if_neg (by omega)]
    have e := beN_append (M.take (M.length - v)) (M.drop (M.length - v))
    rw [List.take_append_drop, h1, hd] at e
    have hlt := beN_lt (M.drop (M.length - v))
    rw [hd] at hlt
    rw [e, Nat.mul_comm, Nat.mul_add_mod, Nat.mod_eq_of_lt hlt]
    have := hx_beN (M.drop (M.length - v))
    rw [hd] at this
    exact this.symm
  · rw [if_neg hl]
    have hlt := beN_lt M
    have hlt2 : n < 256 ^ v := by rw [← h1]; exact Nat.lt_of_lt_of_le hlt (Nat.pow_le_pow_right (by decide) (by omega))
    rw [Nat.mod_eq_of_lt hlt2]
    have key : List.replicate (v - M.length) 0#8 ++ M = hx v n := by
      have hb : beN (List.replicate (v - M.length) 0#8 ++ M) = n := by rw [beN_append, beN_zeros, h1, Nat.zero_mul, Nat.zero_add]
      have := hx_beN (List.replicate (v - M.length) 0#8 ++ M)
      rw [hb] at this
      have hlen : (List.replicate (v - M.length) 0#8 ++ M).length = v := by simp; omega
      rw [hlen] at this; exact this.symm
    split
    · exact key
    · have : v - M.length = 0 := by omega
      rw [this] at key; exact key

/-! ### the blocks of `I` -/

theorem updateI_aux (v B : Nat) (hv : 0 < v) (I : Bytes) (q : Nat) (hI : I.length = q * v) : ∀ n, n ≤ q →
    (List.range n).foldl (fun I j => I.take (j * v) ++ newBlock v B ((I.drop (j * v)).take v) ++ I.drop ((j + 1) * v)) I =
      ((fullBlocks v I).take n).flatMap (fun x => newBlock v B x) ++ I.drop (n * v) := by
  intro n
  have hnb (x : Bytes) : (newBlock v B x).length = v := by rw [newBlock_eq]; simp [hx]
  induction n with
  | zero => intro _; simp
  | succ n ih =>
    intro hn
    rw [List.range_succ, List.foldl_append, ih (by omega), List.foldl_cons, List.foldl_nil]
    have hP : (((fullBlocks v I).take n).flatMap (fun x => newBlock v B x)).length = n * v := by
      have hlen : ((fullBlocks v I).take n).length = n := by
        rw [List.length_take]
        have : (fullBlocks v I).length = q := by simp [fullBlocks, hI, Nat.mul_div_cancel _ hv]
        omega
      have aux : ∀ L : List Bytes, (L.flatMap fun x => newBlock v B x).length = L.length * v := by
        intro L
        induction L with
        | nil => simp
        | cons x L ih => rw [List.flatMap_cons, List.length_append, ih, hnb, List.length_cons, Nat.succ_mul, Nat.add_comm]
      rw [aux, hlen]
    have hfb : (fullBlocks v I).take (n + 1) = (fullBlocks v I).take n ++ [(I.drop (n * v)).take v] := by
      have hlen : n < (fullBlocks v I).length := by simp [fullBlocks, hI, Nat.mul_div_cancel _ hv]; omega
      rw [List.take_succ_eq_append_getElem hlen]
      simp [fullBlocks]
    rw [hfb, List.flatMap_append, List.flatMap_cons, List.flatMap_nil, List.append_nil]
    generalize ((fullBlocks v I).take n).flatMap (fun x => newBlock v B x) = P at hP ⊢
    have e1 : (P ++ I.drop (n * v)).take (n * v) = P := by rw [← hP, List.take_left]
    have e2 : (P ++ I.drop (n * v)).drop (n * v) = I.drop (n * v) := by rw [← hP, List.drop_left]
    have e3 : (P ++ I.drop (n * v)).drop ((n + 1) * v) = I.drop ((n + 1) * v) := by
      rw [Nat.succ_mul, ← List.drop_drop, e2, List.drop_drop]
    rw [e1, e2, e3]

theorem updateI_eq (v : Nat) (B : Bytes) (hv : 0 < v) (I : Bytes) (q : Nat) (hI : I.length = q * v) : updateI v (beN B) I = Spec.bump v B I := by
  have hq : I.length / v = q := by rw [hI, Nat.mul_div_cancel _ hv]
  rw [updateI, hq, updateI_aux v _ hv I q hI q (Nat.le_refl q), ← hI, List.drop_length, List.append_nil]
  have hl : (fullBlocks v I).length = q := by simp [fullBlocks, hq]
  rw [← hl, List.take_length, Spec.bump]
  congr 1
  funext x
  exact newBlock_eq v (beN B) x

theorem bump_length (v : Nat) (hv : 0 < v) (B I : Bytes) (q : Nat) (hI : I.length = q * v) : (Spec.bump v B I).length = q * v := by
  have hq : I.length / v = q := by rw [hI, Nat.mul_div_cancel _ hv]
  have hl : (fullBlocks v I).length = q := by simp [fullBlocks, hq]
  rw [Spec.bump, ← hl]
  generalize fullBlocks v I = L
  induction L with
  | nil => simp
  | cons x L ih => rw [List.flatMap_cons, List.length_append, ih, List.length_cons, Nat.succ_mul, Nat.add_comm]; simp [hx]

theorem p12I_length (f : Bytes → Bytes) (v r : Nat) (hv : 0 < v) (ID : Byte) (salt password : Bytes) : ∀ i,
    (Spec.p12I f v r ID salt password i).length = ((salt.length + v - 1) / v + (password.length + v - 1) / v) * v
  | 0 => by rw [Spec.p12I, List.length_append, stretch_length, stretch_length, Nat.add_mul, Nat.mul_comm v, Nat.mul_comm v]
  | i + 1 => bump_length v hv _ _ _ (p12I_length f v r hv ID salt password i)

theorem iter_length (H : HashFn) (r : Nat) (x : Bytes) : (Spec.iter H.f (r + 1) x).length = H.size := H.len _

theorem loop_eq (H : HashFn) (v r : Nat) (hv : 0 < v) (ID : Byte) (salt password : Bytes) : ∀ (n i : Nat) (C : Nat), C = (i + n) * H.size →
    loop H H.size v r (List.replicate v ID) n i
      (fit C (chunks (fun i => Spec.iter H.f (r - 1 + 1) (List.replicate v ID ++ Spec.p12I H.f v (r - 1 + 1) ID salt password i)) i))
      (Spec.p12I H.f v (r - 1 + 1) ID salt password i) =
    .ok (fit C (chunks (fun i => Spec.iter H.f (r - 1 + 1) (List.replicate v ID ++ Spec.p12I H.f v (r - 1 + 1) ID salt password i)) (i + n)))
  | 0, i, C, _ => rfl
  | n + 1, i, C, hC => by
    have hT (i : Nat) : (Spec.iter H.f (r - 1 + 1) (List.replicate v ID ++ Spec.p12I H.f v (r - 1 + 1) ID salt password i)).length = H.size :=
      iter_length _ _ _
    have hcl := chunks_length (fun i => Spec.iter H.f (r - 1 + 1) (List.replicate v ID ++ Spec.p12I H.f v (r - 1 + 1) ID salt password i)) H.size hT i
    rw [loop]
    have e : iterHash H (r - 1) (H.f (List.replicate v ID ++ Spec.p12I H.f v (r - 1 + 1) ID salt password i)) =
        Spec.iter H.f (r - 1 + 1) (List.replicate v ID ++ Spec.p12I H.f v (r - 1 + 1) ID salt password i) := by
      rw [iterHash_eq, iter_comm]; rfl
    simp only [e]
    have hle : (chunks (fun i => Spec.iter H.f (r - 1 + 1) (List.replicate v ID ++ Spec.p12I H.f v (r - 1 + 1) ID salt password i)) i).length ≤ C := by
      rw [hcl, hC]; exact Nat.mul_le_mul_right _ (by omega)
    have hcp := copyAt_fit C (chunks (fun i => Spec.iter H.f (r - 1 + 1) (List.replicate v ID ++ Spec.p12I H.f v (r - 1 + 1) ID salt password i)) i)
      (Spec.iter H.f (r - 1 + 1) (List.replicate v ID ++ Spec.p12I H.f v (r - 1 + 1) ID salt password i)) hle
    rw [hcl] at hcp
    have hs := chunks_succ (fun i => Spec.iter H.f (r - 1 + 1) (List.replicate v ID ++ Spec.p12I H.f v (r - 1 + 1) ID salt password i)) i
    rw [hcp, ← hs]
    have hin : i + (n + 1) = i + 1 + n := by omega
    rw [hin] at hC ⊢
    by_cases hn : n > 0
    · rw [if_pos hn]
      obtain ⟨m, hm, hmv⟩ := growB_eq (Spec.iter H.f (r - 1 + 1) (List.replicate v ID ++ Spec.p12I H.f v (r - 1 + 1) ID salt password i))
        (by rw [hT]; exact H.pos) v (v + 1) 0 (by omega)
      have e0 : rep 0 (Spec.iter H.f (r - 1 + 1) (List.replicate v ID ++ Spec.p12I H.f v (r - 1 + 1) ID salt password i)) = [] := rfl
      rw [e0] at hm
      rw [hm, Res.bind_ok, take_rep _ (by rw [hT]; exact H.pos) m v hmv, updateI_eq v _ hv _ _ (p12I_length _ _ _ hv _ _ _ _)]
      exact loop_eq H v r hv ID salt password n (i + 1) C hC
    · have h0 : n = 0 := by omega
      subst h0
      rw [if_neg hn]; rfl

theorem key_eq (H : HashFn) (v : Nat) (hv : 0 < v) (salt password : Bytes) (r : Int) (ID : Byte) (L : Nat) :
    key H H.size v salt password r ID L = .ok (Spec.pkcs12 H.f H.size v salt password (r.toNat - 1 + 1) ID L) := by
  have hpos := H.pos
  rw [key, if_neg (by omega), if_neg (by omega)]
  simp only [Int.toNat_natCast]
  have := loop_eq H v r.toNat hv ID salt password ((L + H.size - 1) / H.size) 0 ((L + H.size - 1) / H.size * H.size) (by rw [Nat.zero_add])
  rw [Nat.zero_add] at this
  have e0 : chunks (fun i => Spec.iter H.f (r.toNat - 1 + 1) (List.replicate v ID ++ Spec.p12I H.f v (r.toNat - 1 + 1) ID salt password i)) 0 = [] := rfl
  have eI : Spec.p12I H.f v (r.toNat - 1 + 1) ID salt password 0 = fillWithRepeats salt v ++ fillWithRepeats password v := by
    rw [fill_eq _ _ hv, fill_eq _ _ hv]; rfl
  rw [e0, fit_nil, eI] at this
  rw [this, Res.bind_ok]
  have hT (i : Nat) : (Spec.iter H.f (r.toNat - 1 + 1) (List.replicate v ID ++ Spec.p12I H.f v (r.toNat - 1 + 1) ID salt password i)).length = H.size :=
    iter_length _ _ _
  rw [fit_full _ _ (by rw [chunks_length _ _ hT]; exact Nat.le_refl _), List.take_take, Nat.min_eq_left (ceil_mul _ _ hpos)]
  rfl

end Verif.Kdf.P12
