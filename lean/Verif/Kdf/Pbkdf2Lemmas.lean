import Verif.Kdf.Pbkdf2
import Verif.Kdf.Pbkdf2Spec
import Verif.Hash.Stream
import Verif.Hash.StreebogFast
namespace Verif.Kdf
open Verif.Cipher

theorem U_length (p : Bytes → Bytes) (sz : Nat) (hp : ∀ m, (p m).length = sz) (S : Bytes) (i j : Nat) : (Spec.U p S i j).length = sz := by
  cases j <;> exact hp _

theorem F_length (p : Bytes → Bytes) (sz : Nat) (hp : ∀ m, (p m).length = sz) (S : Bytes) (i n : Nat) : (Spec.F p S i n).length = sz := by
  induction n with
  | zero => exact hp _
  | succ n ih => rw [Spec.F, xorb_length, ih, U_length p sz hp, Nat.min_self]

namespace Pbkdf2

theorem buf4_eq (b : Nat) : buf4 b = hx 4 b := by
  have h (n : Nat) : BitVec.ofNat 8 n = BitVec.ofNat 8 (n % 256) := by
    apply BitVec.eq_of_toNat_eq; simp
  simp only [buf4, hx, leBytes, List.reverse_cons, List.reverse_nil, List.nil_append, List.cons_append, Nat.shiftRight_eq_div_pow,
    Nat.div_div_eq_div_mul]

theorem inner_eq (P : Prf) (k S : Bytes) (i : Nat) : ∀ (n j : Nat), inner P k n (Spec.U (P.f k) S i j, Spec.F (P.f k) S i j) =
    (Spec.U (P.f k) S i (j + n), Spec.F (P.f k) S i (j + n))
  | 0, j => rfl
  | n + 1, j => by
    rw [inner]
    show inner P k n (Spec.U (P.f k) S i (j + 1), Spec.F (P.f k) S i (j + 1)) = _
    rw [inner_eq P k S i n (j + 1)]
    have : j + 1 + n = j + (n + 1) := by omega
    rw [this]

theorem blockStep_eq (P : Prf) (k S : Bytes) (iter : Int) (dk Ub : Bytes) (hu : Ub.length = P.size) (b : Nat) :
    ∃ U', U'.length = P.size ∧ blockStep P k S iter (dk, Ub) b = (dk ++ Spec.F (P.f k) S b (iter - 1).toNat, U') := by
  have e0 : P.f k (S ++ buf4 b) = Spec.U (P.f k) S b 0 := by rw [buf4_eq]; rfl
  have hl := P.len k (S ++ buf4 b)
  have hn : (dk ++ P.f k (S ++ buf4 b)).length - P.size = dk.length := by rw [List.length_append, hl]; omega
  refine ⟨Spec.U (P.f k) S b (iter - 1).toNat, U_length _ _ (P.len k) _ _ _, ?_⟩
  rw [blockStep]
  simp only [hn, List.drop_left, List.take_left]
  rw [copyInto_eq_left _ _ (by rw [hl, hu]), e0]
  have := inner_eq P k S b (iter - 1).toNat 0
  rw [Nat.zero_add] at this
  show (dk ++ (inner P k _ (Spec.U (P.f k) S b 0, Spec.F (P.f k) S b 0)).2, (inner P k _ (Spec.U (P.f k) S b 0, Spec.F (P.f k) S b 0)).1) = _
  rw [this]

theorem fold_eq (P : Prf) (k S : Bytes) (iter : Int) (n : Nat) : ∃ U', U'.length = P.size ∧
    (List.range n).foldl (fun s i => blockStep P k S iter s (i + 1)) ([], List.replicate P.size 0#8) =
      (chunks (fun i => Spec.F (P.f k) S (i + 1) (iter - 1).toNat) n, U') := by
  induction n with
  | zero => exact ⟨List.replicate P.size 0#8, by simp, by simp [chunks]⟩
  | succ n ih =>
    obtain ⟨U, hU, e⟩ := ih
    obtain ⟨U', hU', e'⟩ := blockStep_eq P k S iter (chunks (fun i => Spec.F (P.f k) S (i + 1) (iter - 1).toNat) n) U hU (n + 1)
    exact ⟨U', hU', by rw [List.range_succ, List.foldl_append, e, List.foldl_cons, List.foldl_nil, e', chunks_succ]⟩

theorem key_eq (P : Prf) (pw S : Bytes) (iter : Int) (L : Nat) :
    key P pw S iter L = .ok (Spec.pbkdf2 (P.f pw) P.size S ((iter - 1).toNat + 1) L) := by
  obtain ⟨U, hU, e⟩ := fold_eq P pw S iter ((L + P.size - 1) / P.size)
  rw [key, if_neg (by omega)]
  simp only [Int.toNat_natCast, e, Spec.pbkdf2, Nat.add_sub_cancel]
  rfl

end Pbkdf2

namespace GostPbkdf2

theorem xorb_reverse (a b : Bytes) (h : a.length = b.length) : (xorb a b).reverse = xorb a.reverse b.reverse := by
  rw [xorb, xorb, List.reverse_zipWith h]

theorem beN_xorb (a b : Bytes) (h : a.length = b.length) : beN a ^^^ beN b = beN (xorb a b) := by
  rw [beN, beN, beN, xorb_reverse a b h, Verif.Hash.Streebog.Fast.leN_xorb _ _ (by simpa using h)]

theorem hx_beN (a : Bytes) : hx a.length (beN a) = a := by
  have := leBytes_leN a.reverse
  rw [List.length_reverse] at this
  rw [hx, beN, this, List.reverse_reverse]

theorem beN_lt (a : Bytes) : beN a < 256 ^ a.length := by
  have := leN_lt a.reverse
  rwa [List.length_reverse] at this

variable (H : HashFn) (ip op : Bytes)

theorem rounds_eq (S : Bytes) (i : Nat) : ∀ (n j : Nat),
    rounds H ip op n (Spec.U (prf H ip op) S i j, beN (Spec.F (prf H ip op) S i j)) =
    (Spec.U (prf H ip op) S i (j + n), beN (Spec.F (prf H ip op) S i (j + n)))
  | 0, j => rfl
  | n + 1, j => by
    rw [rounds]
    have hp (m : Bytes) : (prf H ip op m).length = H.size := H.len _
    rw [beN_xorb _ _ (by rw [F_length _ _ hp]; exact (hp _).symm)]
    show rounds H ip op n (Spec.U (prf H ip op) S i (j + 1), beN (Spec.F (prf H ip op) S i (j + 1))) = _
    rw [rounds_eq S i n (j + 1)]
    have : j + 1 + n = j + (n + 1) := by omega
    rw [this]

theorem bytes_frame (h h' : Heap) (s : Slice) (hf : ∀ a, s.ptr ≤ a → a < s.ptr + s.len → h'.mem a = h.mem a) : h'.bytes s = h.bytes s := by
  rw [Heap.bytes, Heap.bytes, Mem.read, Mem.read]
  apply List.map_congr_left
  intro i hi
  simp only [List.mem_range] at hi
  exact hf _ (by omega) (by omega)

/-- Outside the spare capacity of `s`, everything below `b` is as before. -/
def Kept (b : Nat) (s : Slice) (h h' : Heap) : Prop :=
  h.brk ≤ h'.brk ∧ ∀ a, a < b → (a < s.ptr + s.len ∨ s.ptr + s.cap ≤ a) → h'.mem a = h.mem a

theorem loop_eq (slack : Nat → Nat) (salt : Slice) (iter : Int) (L b : Nat) (S : Bytes) :
    ∀ (fuel : Nat) (h : Heap) (m : Nat), salt.Valid h → b ≤ h.brk → h.bytes salt = S → L - m * H.size < fuel →
    ∃ h' n, loop H slack ip op salt iter L fuel h (chunks (fun i => Spec.F (prf H ip op) S (i + 1) (iter - 1).toNat) m) (BitVec.ofNat 32 (m + 1)) =
        .ok (h', chunks (fun i => Spec.F (prf H ip op) S (i + 1) (iter - 1).toNat) n) ∧ L ≤ n * H.size ∧ Kept b salt h h' := by
  intro fuel
  have hp (m : Bytes) : (prf H ip op m).length = H.size := H.len _
  have hF (i : Nat) : (Spec.F (prf H ip op) S (i + 1) (iter - 1).toNat).length = H.size := F_length _ _ hp _ _ _
  have hpos := H.pos
  induction fuel with
  | zero => intro h m hv hb hS hfu; omega
  | succ fuel ih =>
    intro h m hv hb hS hfu
    rw [loop, chunks_length _ _ hF]
    by_cases hc : m * H.size < L
    · rw [if_pos hc]
      obtain ⟨a1, a2, a3, a4, a5⟩ := appendM_spec slack h salt (hx 4 (BitVec.ofNat 32 (m + 1)).toNat) hv
      generalize appendM slack h salt (hx 4 (BitVec.ofNat 32 (m + 1)).toNat) = a at a1 a2 a3 a4 a5
      have e4 : hx 4 (BitVec.ofNat 32 (m + 1)).toNat = hx 4 (m + 1) := by
        rw [BitVec.toNat_ofNat, hx, hx, ← Verif.Hash.leBytes_mod 4 (m + 1)]
      have eU : prf H ip op (a.1.bytes a.2) = Spec.U (prf H ip op) S (m + 1) 0 := by rw [a2, hS, e4]; rfl
      have hr := rounds_eq H ip op S (m + 1) (iter - 1).toNat 0
      rw [Nat.zero_add] at hr
      simp only [eU]
      have eF : beN (Spec.U (prf H ip op) S (m + 1) 0) = beN (Spec.F (prf H ip op) S (m + 1) 0) := rfl
      rw [eF, hr]
      have hlt := beN_lt (Spec.F (prf H ip op) S (m + 1) (iter - 1).toNat)
      rw [hF m] at hlt
      rw [if_neg (Nat.not_le.mpr hlt)]
      have hxe := hx_beN (Spec.F (prf H ip op) S (m + 1) (iter - 1).toNat)
      rw [hF m] at hxe
      rw [hxe]
      have hv' : salt.Valid a.1 := ⟨hv.1, Nat.le_trans hv.2 a4.1⟩
      have hS' : a.1.bytes salt = S := by
        rw [← hS]; exact bytes_frame h a.1 salt fun x _ hx => a4.2 x (Nat.lt_of_lt_of_le hx (by have := hv.1; have := hv.2; omega)) (Or.inl hx)
      obtain ⟨h', n, e, hn, k1, k2⟩ := ih a.1 (m + 1) hv' (Nat.le_trans hb a4.1) hS' (by rw [Nat.succ_mul]; omega)
      rw [chunks_succ] at e
      have e1 : BitVec.ofNat 32 (m + 1) + 1 = BitVec.ofNat 32 (m + 1 + 1) := (BitVec.ofNat_add (n := 32) (m + 1) 1).symm
      refine ⟨h', n, by rw [e1]; exact e, hn, Nat.le_trans a4.1 k1, fun x hx ho => ?_⟩
      rw [k2 x hx ho, a4.2 x (Nat.lt_of_lt_of_le hx hb) ho]
    · rw [if_neg hc]
      exact ⟨h, m, rfl, by omega, Nat.le_refl _, fun _ _ _ => rfl⟩

theorem key_eq (H : HashFn) (slack : Nat → Nat) (h : Heap) (password salt : Slice) (iter : Int) (L : Nat)
    (hp : password.Valid h) (hs : salt.Valid h) (hlen : password.len < H.block)
    (hd : salt.ptr + salt.len ≤ password.ptr + password.len ∨ password.ptr + password.cap ≤ salt.ptr ∨ salt.len = 0) :
    ∃ h', key H slack h password salt iter L =
        .ok (h', Spec.pbkdf2 (hmac H (h.bytes password)) H.size (h.bytes salt) ((iter - 1).toNat + 1) L) ∧
      ∀ a, a < h.brk → (a < password.ptr + password.len ∨ password.ptr + password.cap ≤ a) →
        (a < salt.ptr + salt.len ∨ salt.ptr + salt.cap ≤ a) → h'.mem a = h.mem a := by
  rw [key]
  obtain ⟨a1, a2, a3, a4, a5⟩ := appendM_spec slack h password (List.replicate (H.block - password.len % H.block) 0#8) hp
  generalize appendM slack h password (List.replicate (H.block - password.len % H.block) 0#8) = a at a1 a2 a3 a4 a5
  have hpl : (h.bytes password).length = password.len := by simp [Heap.bytes]
  have hk : hmacKey H (h.bytes password) = a.1.bytes a.2 := by
    rw [a2, hmacKey, hpl]
    rw [if_neg (by omega), hpl, Nat.mod_eq_of_lt hlen]
  rw [← hk]
  have hpe : prf H ((hmacKey H (h.bytes password)).map (· ^^^ 0x36#8)) ((hmacKey H (h.bytes password)).map (· ^^^ 0x5c#8)) = hmac H (h.bytes password) := rfl
  generalize (hmacKey H (h.bytes password)).map (· ^^^ 0x36#8) = ip at hpe
  generalize (hmacKey H (h.bytes password)).map (· ^^^ 0x5c#8) = op at hpe
  have hS : a.1.bytes salt = h.bytes salt := bytes_frame h a.1 salt fun x h1 h2 =>
    a4.2 x (by have := hs.1; have := hs.2; omega) (by omega)
  obtain ⟨h', n, e, hn, k1, k2⟩ := loop_eq H ip op slack salt iter L h.brk (h.bytes salt) (L + 1) a.1 0 ⟨hs.1, Nat.le_trans hs.2 a4.1⟩ a4.1 hS (by omega)
  refine ⟨h', ?_, fun x hx h1 h2 => ?_⟩
  · have e0 : chunks (fun i => Spec.F (prf H ip op) (h.bytes salt) (i + 1) (iter - 1).toNat) 0 = [] := rfl
    rw [e0] at e
    rw [Int.toNat_natCast]
    show (loop H slack ip op salt iter L (L + 1) a.1 [] (BitVec.ofNat 32 (0 + 1)) >>= fun r => if (L : Int) < 0 then Res.panic else Res.ok (r.1, r.2.take L)) = _
    have hp2 (m : Bytes) : (prf H ip op m).length = H.size := H.len _
    rw [e, Res.bind_ok, if_neg (by omega), take_chunks _ H.size L n H.pos (fun i => F_length _ _ hp2 _ _ _) hn, hpe, Spec.pbkdf2, Nat.add_sub_cancel]
  · rw [k2 x hx h2, a4.2 x hx h1]

end GostPbkdf2
end Verif.Kdf
