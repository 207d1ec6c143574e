import Verif.Kdf.Misc
import Verif.Kdf.MiscSpec
import Verif.Kdf.KbLemmas
namespace Verif.Kdf
open Verif.Cipher Verif.Hash

namespace KTree

theorem loop_eq (mac : Bytes → Bytes) (label seed Lb : Bytes) (k : Nat) (hk : k ≤ 254) :
    ∀ (fuel m : Nat), m ≤ k → k - m < fuel → loop mac label seed Lb (BitVec.ofNat 8 k) fuel (BitVec.ofNat 8 (m + 1))
      (chunks (fun i => mac (hx 1 (i + 1) ++ label ++ [0] ++ seed ++ Lb)) m) =
      .ok (chunks (fun i => mac (hx 1 (i + 1) ++ label ++ [0] ++ seed ++ Lb)) k)
  | 0, m, _, h => by omega
  | fuel + 1, m, hm, h => by
    rw [loop]
    have hle : (BitVec.ofNat 8 (m + 1) ≤ BitVec.ofNat 8 k) ↔ m + 1 ≤ k := by
      rw [BitVec.le_def, BitVec.toNat_ofNat, BitVec.toNat_ofNat, Nat.mod_eq_of_lt (by omega), Nat.mod_eq_of_lt (by omega)]
    by_cases hc : m + 1 ≤ k
    · rw [if_pos (hle.mpr hc)]
      have e1 : BitVec.ofNat 8 (m + 1) + 1 = BitVec.ofNat 8 (m + 1 + 1) := (BitVec.ofNat_add (n := 8) (m + 1) 1).symm
      have e2 : [BitVec.ofNat 8 (m + 1)] = hx 1 (m + 1) := rfl
      rw [e1, e2, ← chunks_succ (fun i => mac (hx 1 (i + 1) ++ label ++ [0] ++ seed ++ Lb)) m]
      exact loop_eq mac label seed Lb k hk fuel (m + 1) hc (by omega)
    · rw [if_neg (fun hh => hc (hle.mp hh))]
      rw [show m = k by omega]

theorem loop_hang (mac : Bytes → Bytes) (label seed Lb : Bytes) : ∀ (fuel : Nat) (i : Byte) (out : Bytes), loop mac label seed Lb 255 fuel i out = .hang
  | 0, _, _ => rfl
  | fuel + 1, i, out => by
    rw [loop, if_pos (by show i ≤ 255#8; rw [BitVec.le_def]; have := i.isLt; have e : (255#8).toNat = 255 := rfl; omega)]
    exact loop_hang mac label seed Lb fuel _ _

theorem key_unfold (fuel : Nat) (H : HashFn) (secret label seed : Bytes) (k : Nat) (h1 : 1 ≤ k) (h2 : k ≤ 255) :
    key fuel H secret label seed ((k * H.size : Nat) : Int) = loop (hmac H secret) label seed (hx 2 (8 * (k * H.size))) (BitVec.ofNat 8 k) fuel 1 [] := by
  have hp := H.pos
  have hpos : 0 < k * H.size := Nat.mul_pos h1 hp
  have hle : k * H.size ≤ 255 * H.size := Nat.mul_le_mul_right _ h2
  have hm : ((k * H.size : Nat) : Int) % (H.size : Int) = 0 := by
    rw [← Int.natCast_emod, Nat.mul_mod_left]; rfl
  rw [key, if_neg (by rintro (h | h | h) <;> omega), if_neg (by omega)]
  simp only [Int.toNat_natCast, Nat.mul_div_cancel _ hp, BitVec.toNat_ofNat]
  have := Kb.hx_mod 2 (8 * (k * H.size))
  rw [show (256 : Nat) ^ 2 = 2 ^ 16 from rfl] at this
  rw [this]

end KTree

namespace Prfp

theorem T_length (H : HashFn) (pw S : Bytes) : ∀ i, (Spec.prfPlusT (hmac H pw) S i).length = H.size
  | 0 => hmac_length _ _ _
  | _ + 1 => hmac_length _ _ _

/-- `m` chunks are in place; `i = m - 1` steps done. -/
theorem loop_eq (H : HashFn) (pw S : Bytes) (L n : Nat) (hn : n * H.size < L) :
    ∀ (k i : Nat), i + k = n → 
      loop (hmac H pw) H.size S n k i (Spec.prfPlusT (hmac H pw) S i) (fit L (chunks (Spec.prfPlusT (hmac H pw) S) (i + 1))) ((if k = 0 then i else i + 1) * H.size) =
      fit L (chunks (Spec.prfPlusT (hmac H pw) S) (n + 1))
  | 0, i, h => by rw [loop, show i = n by omega]
  | k + 1, i, h => by
    rw [loop]
    have hd : hmac H pw (Spec.prfPlusT (hmac H pw) S i ++ S ++ [BitVec.ofNat 8 (i + 2)]) = Spec.prfPlusT (hmac H pw) S (i + 1) := rfl
    have hl := chunks_length (Spec.prfPlusT (hmac H pw) S) H.size (T_length H pw S) (i + 1)
    have hm : (i + 1) * H.size ≤ n * H.size := Nat.mul_le_mul_right _ (by omega)
    have hc := copyAt_fit L (chunks (Spec.prfPlusT (hmac H pw) S) (i + 1)) (Spec.prfPlusT (hmac H pw) S (i + 1)) (by rw [hl]; omega)
    rw [hl] at hc
    rw [if_neg (by omega)]
    simp only [hd, hc, ← chunks_succ]
    have hoff : (if i + 1 ≠ n then (i + 1) * H.size + H.size else (i + 1) * H.size) = (if k = 0 then i + 1 else i + 1 + 1) * H.size := by
      by_cases hk : k = 0
      · rw [if_neg (by omega), if_pos hk]
      · rw [if_pos (by omega), if_neg hk, Nat.succ_mul (i + 1)]
    rw [hoff]
    exact loop_eq H pw S L n hn k (i + 1) (by omega)

theorem key_eq (H : HashFn) (pw S : Bytes) (hp : pw ≠ []) (hS : S ≠ []) (L : Nat) :
    key H pw S L = .ok (Spec.prfPlus (hmac H pw) H.size S L) := by
  have hpl : pw.length ≠ 0 := fun h => hp (List.length_eq_zero_iff.mp h)
  have hSl : S.length ≠ 0 := fun h => hS (List.length_eq_zero_iff.mp h)
  have hpos := H.pos
  rw [key, if_neg hpl, if_neg hSl]
  simp only
  rw [if_neg (by omega)]
  simp only [Int.toNat_natCast]
  have hT := T_length H pw S
  have e1 : chunks (Spec.prfPlusT (hmac H pw) S) 1 = hmac H pw (S ++ [1]) := by simp [chunks, Spec.prfPlusT]
  have hdst : copyInto (List.replicate L 0#8) (hmac H pw (S ++ [1])) = fit L (chunks (Spec.prfPlusT (hmac H pw) S) 1) := by
    rw [e1, copyInto, fit, List.length_replicate, List.drop_replicate]
  rw [hdst, fit_length]
  by_cases h0 : L / H.size = 0
  · rw [if_pos h0]
    have hlt : L < H.size := by
      rcases Nat.div_eq_zero_iff.mp h0 with h | h
      · omega
      · exact h
    have hl := chunks_length _ H.size hT 1
    rw [fit_full _ _ (by rw [hl]; omega), take_chunks _ _ L 1 hpos hT (by omega)]; rfl
  rw [if_neg h0]
  have hdm := Nat.div_add_mod L H.size
  have hml := Nat.mod_lt L hpos
  rw [Nat.mul_comm] at hdm
  -- the number of further blocks
  generalize hq : L / H.size = q at h0 hdm
  obtain ⟨q', rfl⟩ : ∃ q', q = q' + 1 := ⟨q - 1, by omega⟩
  have hsm : (q' + 1) * H.size = q' * H.size + H.size := Nat.succ_mul _ _
  have key2 : ∀ n, n * H.size < L → L ≤ (n + 1) * H.size →
      loop (hmac H pw) H.size S n n 0 (hmac H pw (S ++ [1])) (fit L (chunks (Spec.prfPlusT (hmac H pw) S) 1)) H.size =
      Spec.prfPlus (hmac H pw) H.size S L := by
    intro n h1 h2
    have hfin : fit L (chunks (Spec.prfPlusT (hmac H pw) S) (n + 1)) = Spec.prfPlus (hmac H pw) H.size S L := by
      rw [fit_full _ _ (by rw [chunks_length _ H.size hT]; exact h2), take_chunks _ _ L (n + 1) hpos hT h2]; rfl
    cases n with
    | zero => rw [loop]; exact hfin
    | succ n =>
      have := loop_eq H pw S L (n + 1) h1 (n + 1) 0 (by omega)
      rw [if_neg (by omega), Nat.zero_add, Nat.one_mul] at this
      exact this.trans hfin
  by_cases hz : (q' + 1) * H.size ≠ L
  · rw [if_pos hz, Nat.add_sub_cancel, key2 (q' + 1) (by omega) (by rw [Nat.succ_mul]; omega)]
  · rw [if_neg hz, Nat.add_sub_cancel, key2 q' (by omega) (by omega)]

end Prfp

namespace SmKdf

theorem loop_eq (f : Bytes → Bytes) (z : Bytes) : ∀ (n m : Nat), 
    loop f z n (BitVec.ofNat 32 (m + 1)) (chunks (fun i => f (z ++ hx 4 (i + 1))) m) = chunks (fun i => f (z ++ hx 4 (i + 1))) (m + n)
  | 0, m => rfl
  | n + 1, m => by
    rw [loop]
    have e1 : BitVec.ofNat 32 (m + 1) + 1 = BitVec.ofNat 32 (m + 1 + 1) := (BitVec.ofNat_add (n := 32) (m + 1) 1).symm
    have e2 : hx 4 (BitVec.ofNat 32 (m + 1)).toNat = hx 4 (m + 1) := by
      rw [BitVec.toNat_ofNat]; exact Kb.hx_mod 4 (m + 1)
    rw [e1, e2, ← chunks_succ (fun i => f (z ++ hx 4 (i + 1))) m, loop_eq f z n (m + 1)]
    congr 1; omega

theorem key_eq (H : HashFn) (hH : H.size ≤ 2 ^ 62) (z : Bytes) (L : Nat) (hL : L < 2 ^ 63) :
    key H z L = if (L + H.size - 1) / H.size < 2 ^ 32 - 1 then .ok (Spec.smKdf H.f H.size z L) else .panic := by
  have hpos := H.pos
  have hu : (BitVec.ofInt 64 (L : Int) + BitVec.ofNat 64 H.size - 1#64).toNat = L + H.size - 1 := by
    rw [BitVec.ofInt_natCast, ← BitVec.ofNat_add, BitVec.toNat_sub, BitVec.toNat_ofNat, BitVec.toNat_ofNat]
    omega
  rw [key]
  simp only [hu]
  by_cases h : (L + H.size - 1) / H.size < 2 ^ 32 - 1
  · rw [if_neg (by omega), if_pos h]
    have hT : ∀ i, (H.f (z ++ hx 4 (i + 1))).length = H.size := fun i => H.len _
    have hl := loop_eq H.f z ((L + H.size - 1) / H.size) 0
    have e0 : chunks (fun i => H.f (z ++ hx 4 (i + 1))) 0 = [] := rfl
    rw [e0, Nat.zero_add, Nat.zero_add] at hl
    have e1 : (1 : BitVec 32) = BitVec.ofNat 32 1 := rfl
    rw [e1, hl]
    have hlen := chunks_length _ H.size hT ((L + H.size - 1) / H.size)
    have hc := ceil_mul L H.size hpos
    rw [if_neg (by rw [hlen]; omega)]
    rfl
  · rw [if_pos (by omega), if_neg h]

theorem key_neg (H : HashFn) (z : Bytes) (L : Int) (h : L < 0) : key H z L = .panic := by
  rw [key]
  simp only
  split
  · rfl
  · rw [if_pos (Or.inl h)]

end SmKdf

namespace S2k

theorem flat_len (s : Bytes) (n : Nat) : ((List.replicate n s).flatten).length = n * s.length := by
  simp [List.length_flatten]

theorem cycle_more (s : Bytes) (n k : Nat) (hs : s ≠ []) (hk : n ≤ k) : ((List.replicate k s).flatten).take n = Spec.repeatTo s n := by
  obtain ⟨j, rfl⟩ : ∃ j, k = n + j := ⟨k - n, by omega⟩
  have hpos : 0 < s.length := List.length_pos_iff.mpr hs
  have hn : n ≤ n * s.length := Nat.le_mul_of_pos_right n hpos
  rw [← List.replicate_append_replicate, List.flatten_append, List.take_append_of_le_length (by rw [flat_len]; exact hn)]; rfl

theorem cycle_add (s : Bytes) (n : Nat) (hs : s ≠ []) : Spec.repeatTo s (s.length + n) = s ++ Spec.repeatTo s n := by
  have hpos : 0 < s.length := List.length_pos_iff.mpr hs
  obtain ⟨l, hl⟩ : ∃ l, s.length = l + 1 := ⟨s.length - 1, by omega⟩
  rw [Spec.repeatTo, hl, show l + 1 + n = (l + n) + 1 by omega, List.replicate_succ, List.flatten_cons, List.take_append,
    List.take_of_length_le (by omega), hl, show l + n + 1 - (l + 1) = n by omega, cycle_more s n _ hs (by omega)]

theorem cycle_le (s : Bytes) (n : Nat) (h : n ≤ s.length) : Spec.repeatTo s n = s.take n := by
  cases n with
  | zero => simp [Spec.repeatTo]
  | succ n => rw [Spec.repeatTo, List.replicate_succ, List.flatten_cons, List.take_append_of_le_length h]

theorem writes_eq (buf : Bytes) (hb : buf ≠ []) : ∀ (fuel n : Nat), n < fuel → writes buf fuel (n : Int) = .ok (Spec.repeatTo buf n)
  | 0, n, h => by omega
  | fuel + 1, n, h => by
    have hpos : 0 < buf.length := List.length_pos_iff.mpr hb
    rw [writes]
    by_cases h0 : n = 0
    · subst h0; rfl
    rw [if_pos (by omega)]
    simp only [Int.toNat_natCast]
    have hsub : (n : Int) - (min n buf.length : Nat) = ((n - min n buf.length : Nat) : Int) := by omega
    rw [hsub, writes_eq buf hb fuel _ (by omega)]
    simp only [Res.bind_ok, pure, Res.ok.injEq]
    by_cases hle : n ≤ buf.length
    · rw [Nat.min_eq_left hle, Nat.sub_self, cycle_le buf n hle]
      simp [Spec.repeatTo]
    · have hle' : buf.length ≤ n := by omega
      rw [Nat.min_eq_right hle', List.take_length, ← cycle_add buf _ hb]
      congr 1; omega

theorem input_eq (buf : Bytes) (it : Int) : input buf it = .ok (Spec.repeatTo buf (max it.toNat buf.length)) := by
  rw [input]
  by_cases hb : buf = []
  · subst hb
    rw [if_neg (by simp)]
    have : ∀ n, Spec.repeatTo [] n = [] := fun n => by
      have : (List.replicate n ([] : Bytes)).flatten = [] := by simp
      rw [Spec.repeatTo, this, List.take_nil]
    rw [this]
  · have hpos : 0 < buf.length := List.length_pos_iff.mpr hb
    rw [if_pos hpos]
    have : (max it (buf.length : Int)) = ((max it.toNat buf.length : Nat) : Int) := by omega
    simp only [this, Int.toNat_natCast]
    exact writes_eq buf hb _ _ (by omega)

theorem loop_eq (H : HashFn) (buf : Bytes) (it : Int) (n : Nat) (T : Nat → Bytes)
    (hT : ∀ i, T i = H.f (List.replicate i 0#8 ++ Spec.repeatTo buf (max it.toNat buf.length))) :
    ∀ (fuel m : Nat), n - m * H.size < fuel →
      loop H buf it n fuel m ((min (m * H.size) n : Nat) : Int) ((chunks T m).take n) = .ok (outBytes T H.size n)
  | 0, m, h => by omega
  | fuel + 1, m, h => by
    have hpos := H.pos
    have hlen : ∀ i, (T i).length = H.size := fun i => by rw [hT, H.len]
    have hcl := chunks_length T H.size hlen m
    have hsm : (m + 1) * H.size = m * H.size + H.size := Nat.succ_mul _ _
    rw [loop]
    by_cases hc : m * H.size < n
    · rw [if_pos (by omega), input_eq]
      simp only [Res.bind_ok]
      rw [← hT]
      have eg : ((min (m * H.size) n : Nat) : Int) + min (H.size : Int) ((n : Int) - ((min (m * H.size) n : Nat) : Int)) =
          ((min ((m + 1) * H.size) n : Nat) : Int) := by omega
      have et : (min (H.size : Int) ((n : Int) - ((min (m * H.size) n : Nat) : Int))).toNat = min H.size (n - m * H.size) := by omega
      have eo : (chunks T m).take n ++ (T m).take (min H.size (n - m * H.size)) = (chunks T (m + 1)).take n := by
        rw [chunks_succ, List.take_append, hcl]
        congr 1
        by_cases h2 : H.size ≤ n - m * H.size
        · rw [Nat.min_eq_left h2, List.take_of_length_le (by rw [hlen]; omega), List.take_of_length_le (by rw [hlen]; exact h2)]
        · rw [Nat.min_eq_right (by omega)]
      rw [eg, et, eo]
      exact loop_eq H buf it n T hT fuel (m + 1) (by omega)
    · rw [if_neg (by omega), take_chunks T H.size n m hpos hlen (by omega)]

theorem key_eq (H : HashFn) (pw salt : Bytes) (it : Int) (n : Nat) (h : it ≤ 1 ∨ salt ≠ []) :
    key H pw salt it n = .ok (Spec.s2k H.f H.size pw salt it.toNat n) := by
  rw [key, if_neg (by rintro ⟨h1, h2⟩; rcases h with h | h; · omega
                      exact h (List.length_eq_zero_iff.mp h2))]
  have := loop_eq H (salt ++ pw) it n (fun i => H.f (List.replicate i 0#8 ++ Spec.repeatTo (salt ++ pw) (max it.toNat (salt ++ pw).length)))
    (fun i => rfl) (n + 1) 0 (by omega)
  rw [Nat.zero_mul, Nat.zero_min] at this
  have e0 : (chunks (fun i => H.f (List.replicate i 0#8 ++ Spec.repeatTo (salt ++ pw) (max it.toNat (salt ++ pw).length))) 0).take n = [] := by
    simp [chunks]
  rw [e0] at this
  rw [Int.toNat_natCast]
  exact this

theorem tune_hang (ticks : Nat → Bool) (td tt : Nat) : ∀ (fuel k used : Nat) (r : Bool), tune ticks td tt fuel k used r = .hang
  | 0, _, _, _ => rfl
  | fuel + 1, k, used, r => by
    rw [tune]
    split
    · exact tune_hang ticks td tt fuel _ _ _
    · exact tune_hang ticks td tt fuel _ _ _

end S2k

namespace BcryptKdf

theorem rounds_eq (sha bh : Bytes → Bytes) (salt : Bytes) (block : Nat) : ∀ (n m : Nat) (acc : Bytes),
    rounds sha bh n (Spec.bcU sha bh salt block m) acc =
    (List.range' m n).foldl (fun acc j => xorb acc (Spec.bcU sha bh salt block (j + 1))) acc
  | 0, m, acc => rfl
  | n + 1, m, acc => by
    rw [rounds, List.range'_succ, List.foldl_cons]
    exact rounds_eq sha bh salt block n (m + 1) _

theorem block_eq (sha bh : Bytes → Bytes) (salt : Bytes) (nr block : Nat) (hb : block < 2 ^ 32) :
    rounds sha bh (nr - 1) (bh (sha (salt ++ hx 4 (block % 2 ^ 32)))) (bh (sha (salt ++ hx 4 (block % 2 ^ 32)))) = Spec.bcBlock sha bh salt nr block := by
  rw [Nat.mod_eq_of_lt hb]
  have := rounds_eq sha bh salt block (nr - 1) 0 (bh (sha (salt ++ hx 4 block)))
  rw [← List.range_eq_range'] at this
  exact this

theorem scatter_length (nb block : Nat) (out key : Bytes) : (scatter nb block out key).length = key.length := by
  rw [scatter]
  generalize List.range 32 = l
  induction l generalizing key with
  | nil => rfl
  | cons a l ih => rw [List.foldl_cons, ih, List.length_set]

theorem foldl_set_get (g : Nat → Nat) (v : Nat → Byte) (hinj : ∀ i j, g i = g j → i = j) : ∀ (n : Nat) (key : Bytes) (p : Nat), p < key.length →
    ((List.range n).foldl (fun k i => k.set (g i) (v i)) key)[p]? = if h : ∃ i, i < n ∧ g i = p then some (v h.choose) else key[p]?
  | 0, key, p, hp => by simp
  | n + 1, key, p, hp => by
    rw [List.range_succ, List.foldl_append]
    simp only [List.foldl_cons, List.foldl_nil]
    have hlen : ((List.range n).foldl (fun k i => k.set (g i) (v i)) key).length = key.length := by
      generalize List.range n = l
      clear hp
      induction l generalizing key with
      | nil => rfl
      | cons a l ih => rw [List.foldl_cons, ih, List.length_set]
    rw [List.getElem?_set, hlen]
    by_cases hg : g n = p
    · rw [if_pos hg, if_pos (by omega)]
      have hex : ∃ i, i < n + 1 ∧ g i = p := ⟨n, by omega, hg⟩
      rw [dif_pos hex]
      have := hinj _ _ (hex.choose_spec.2.trans hg.symm)
      rw [this]
    · rw [if_neg hg, foldl_set_get g v hinj n key p hp]
      by_cases h1 : ∃ i, i < n ∧ g i = p
      · have h2 : ∃ i, i < n + 1 ∧ g i = p := h1.elim fun i hi => ⟨i, by omega, hi.2⟩
        rw [dif_pos h1, dif_pos h2]
        rw [hinj _ _ (h1.choose_spec.2.trans h2.choose_spec.2.symm)]
      · have h2 : ¬ ∃ i, i < n + 1 ∧ g i = p := by
          rintro ⟨i, hi, e⟩
          by_cases hin : i = n
          · exact hg (hin ▸ e)
          · exact h1 ⟨i, by omega, e⟩
        rw [dif_neg h1, dif_neg h2]

/-- Writing block `b + 1` of `nb` sets exactly the bytes at positions `b, b + nb, b + 2 nb, …`. -/
theorem scatter_get (nb b : Nat) (hb : b < nb) (out key : Bytes) (hk : key.length = nb * 32) (p : Nat) (hp : p < nb * 32) :
    (scatter nb (b + 1) out key).getD p 0 = if p % nb = b then out.getD (p / nb) 0 else key.getD p 0 := by
  have hnb : 0 < nb := by omega
  rw [scatter, Nat.add_sub_cancel, List.getD_eq_getElem?_getD,
    foldl_set_get (fun i => i * nb + b) (fun i => out.getD i 0) (fun i j h => Nat.eq_of_mul_eq_mul_right hnb (Nat.add_right_cancel h)) 32 key p (by omega)]
  have hdm := Nat.div_add_mod p nb
  by_cases hm : p % nb = b
  · have hex : ∃ i, i < 32 ∧ i * nb + b = p := ⟨p / nb, by rw [Nat.div_lt_iff_lt_mul hnb, Nat.mul_comm]; exact hp, by rw [Nat.mul_comm]; omega⟩
    rw [dif_pos hex, if_pos hm, Option.getD_some]
    have h3 := hex.choose_spec.2
    have : hex.choose = p / nb := Nat.eq_of_mul_eq_mul_right hnb (by rw [Nat.mul_comm (p / nb)]; omega)
    rw [this]
  · rw [if_neg hm, dif_neg, List.getD_eq_getElem?_getD]
    rintro ⟨i, hi, e⟩
    apply hm
    rw [← e, Nat.mul_comm, Nat.mul_add_mod, Nat.mod_eq_of_lt hb]

theorem blocks_spec (sha bh : Bytes → Bytes) (salt : Bytes) (nr nb : Nat) (hnb : nb < 2 ^ 32) : ∀ (n b : Nat) (key : Bytes), b + n = nb → key.length = nb * 32 →
    (∀ p, p < nb * 32 → p % nb < b → key.getD p 0 = (Spec.bcBlock sha bh salt nr (p % nb + 1)).getD (p / nb) 0) →
    (blocks sha bh salt nr nb n (b + 1) key).length = nb * 32 ∧
    ∀ p, p < nb * 32 → (blocks sha bh salt nr nb n (b + 1) key).getD p 0 = (Spec.bcBlock sha bh salt nr (p % nb + 1)).getD (p / nb) 0
  | 0, b, key, h, hk, hp => by
    refine ⟨hk, fun p hlt => hp p hlt ?_⟩
    have : 0 < nb := Nat.pos_of_ne_zero (fun h => by rw [h] at hlt; omega)
    have := Nat.mod_lt p this; omega
  | n + 1, b, key, h, hk, hp => by
    rw [blocks]
    rw [block_eq sha bh salt nr (b + 1) (by omega)]
    refine blocks_spec sha bh salt nr nb hnb n (b + 1) _ (by omega) (by rw [scatter_length]; exact hk) ?_
    intro p hlt hm
    rw [scatter_get nb b (by omega) _ _ hk p hlt]
    by_cases he : p % nb = b
    · rw [if_pos he, he]
    · rw [if_neg he]; exact hp p hlt (by omega)

theorem key_eq (sha : Bytes → Bytes) (bcryptHash : Bytes → Bytes → Bytes) (pw salt : Bytes) (nr n : Nat)
    (h1 : 1 ≤ nr) (h2 : pw ≠ []) (h3 : salt ≠ []) (h4 : salt.length ≤ 2 ^ 20) (h5 : n ≤ 1024) :
    key sha bcryptHash pw salt nr n = .ok (Spec.bcryptKdf sha (bcryptHash (sha pw)) salt nr n) := by
  have hpl : pw.length ≠ 0 := fun h => h2 (List.length_eq_zero_iff.mp h)
  have hSl : salt.length ≠ 0 := fun h => h3 (List.length_eq_zero_iff.mp h)
  have e20 : (1 : Nat) <<< 20 = 2 ^ 20 := rfl
  rw [key, if_neg (by omega), if_neg hpl, if_neg (by rw [e20]; omega), if_neg (by omega), if_neg (by omega)]
  simp only [Int.toNat_natCast]
  obtain ⟨hl, hg⟩ := blocks_spec sha (bcryptHash (sha pw)) salt nr ((n + 31) / 32) (by omega) ((n + 31) / 32) 0
    (List.replicate ((n + 31) / 32 * 32) 0#8) (by omega) (by simp) (by omega)
  rw [Nat.zero_add] at hl hg
  congr 1
  apply List.ext_getElem
  · rw [List.length_take, hl, Spec.bcryptKdf]; simp; omega
  · intro i hi1 hi2
    rw [List.length_take, hl] at hi1
    have := hg i (by omega)
    rw [List.getD_eq_getElem?_getD, List.getElem?_eq_getElem (by omega), Option.getD_some] at this
    rw [List.getElem_take, this]
    simp only [Spec.bcryptKdf, List.getElem_map, List.getElem_range]

end BcryptKdf
end Verif.Kdf
