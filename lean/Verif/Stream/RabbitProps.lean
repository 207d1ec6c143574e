import Verif.Stream.Rabbit
import Verif.Stream.RabbitSpec
import Mathlib.Data.Fintype.Card
import Mathlib.Data.Fintype.Pi
import Mathlib.Data.Fintype.Prod
import Mathlib.Data.Fintype.BigOperators
import Mathlib.Data.Fintype.Pigeonhole
import Mathlib.Tactic.NormNum
/-
Theorems about /repo/cipher/rabbit.
-/
namespace Verif.Strm.Rabbit
open Verif.Mode Verif.Cipher

theorem output_length (x : List W) : (output x).length = 16 := by simp [output]

/-- C132 for Rabbit.  For every 16-byte key and every IV of 8 or no bytes `NewCipher` returns an object that is a stream
cipher, whose key stream depends on the key and the IV alone; other lengths are refused. -/
theorem C132_rabbit_stream (key iv : Bytes) :
    (key.length = 16 ∧ (iv.length = 0 ∨ iv.length = 8) →
      ∃ o, newCipher key iv = .ok o ∧ IsStream Any xorKS o (keystream key iv)) ∧
    (¬ (key.length = 16 ∧ (iv.length = 0 ∨ iv.length = 8)) → newCipher key iv = .err) := by
  constructor
  · rintro ⟨hk, hi⟩
    refine ⟨⟨expandKey key iv, []⟩, ?_, ?_⟩
    · unfold newCipher; rw [if_neg (by omega), if_neg (by omega)]
    · have h := byteStep_stream gen ⟨expandKey key iv, []⟩
      rw [← skipEmpty_eq] at h
      have e : genByte gen ⟨expandKey key iv, []⟩ = keystream key iv := by
        funext i
        have := genByte_blocks gen 16 (by omega) (fun r => output (nextState r).x) nextState
          (fun r j => if j = 0 then (⟨r, []⟩ : Obj) else ⟨nextState r, (output (nextState r).x).drop j⟩) (by
            intro r j hj
            by_cases h0 : j = 0
            · subst h0; simp [gen]
            · simp only [h0, if_false]
              have hl : ((output (nextState r).x).drop j).length ≠ 0 := by simp [output_length]; omega
              unfold gen
              rw [if_neg hl]
              by_cases h1 : j + 1 = 16
              · rw [if_pos h1]
                have e : ((output (nextState r).x).drop j).drop 1 = [] :=
                  List.drop_eq_nil_of_le (by simp [output_length]; omega)
                simp only [e, if_true]
                simp [List.getD_eq_getElem?_getD]
              · simp only [h1, if_false, Nat.add_eq_zero_iff, h0, false_and]
                rw [List.drop_drop]
                simp [List.getD_eq_getElem?_getD])
          (expandKey key iv) i
        exact this
      rw [e] at h
      exact h
  · intro hn
    unfold newCipher
    by_cases hk : key.length = 16
    · rw [if_neg (by omega), if_pos (by omega)]
    · rw [if_pos hk]

example : ∃ o, newCipher (List.replicate 16 0x12) (List.replicate 8 0x34) = .ok o := ⟨_, rfl⟩
example : newCipher (List.replicate 16 0x12) (List.replicate 7 0x34) = .err := rfl
/-- Test vectors of cipher/rabbit/rabbit_test.go. -/
example : ((List.range 8).map fun i => keystream (hx 16 0x12345678901234561234567890123456) [] i) = hx 8 0xd55293bba40cadf0 := by
  decide +kernel
example : ((List.range 8).map fun i => keystream (hx 16 0x12345678901234561234567890123456) (hx 8 0x1234567812345678) i) =
    hx 8 0xda7671fb2e61c40a := by
  decide +kernel
/-- The specification reproduces the vectors of RFC 4503, appendix A. -/
example : ((List.range 16).map fun i => Rfc4503.keystream (List.replicate 16 0) [] i) =
    (hx 16 0xB15754F036A5D6ECF56B45261C4AF702).reverse := by
  decide +kernel
example : ((List.range 16).map fun i => Rfc4503.keystream (List.replicate 16 0) (List.replicate 8 0) i) =
    (hx 16 0xC6A7275EF85495D87CCD5D376705B7ED) ∨ ((List.range 16).map fun i => Rfc4503.keystream (List.replicate 16 0) (List.replicate 8 0) i) =
    (hx 16 0xC6A7275EF85495D87CCD5D376705B7ED).reverse := by
  decide +kernel

/-- C134 is violated: "according to RFC 4503" is false, without and with an IV.  (Read backwards, as the RFC prints it,
the first byte would be 0xB1, which is not what the code produces either.) -/
theorem C134_rabbit_rfc4503_violated :
    (∃ key : Bytes, key.length = 16 ∧ keystream key [] 0 ≠ Rfc4503.keystream key [] 0 ∧
      keystream key [] 0 ≠ Rfc4503.keystream key [] 15) ∧
    ∃ key iv : Bytes, key.length = 16 ∧ iv.length = 8 ∧ keystream key iv 0 ≠ Rfc4503.keystream key iv 0 :=
  ⟨⟨List.replicate 16 0, by decide +kernel⟩, List.replicate 16 0, List.replicate 8 0, by decide +kernel⟩

/-! ### Distinct IVs -/

theorem sub32_borrow (x y b : W) : (sub32 x y b).2 = 0 ∨ (sub32 x y b).2 = 1 := by
  have h : ∀ z : W, z >>> 31 = 0 ∨ z >>> 31 = 1 := by
    intro z
    have : (z >>> 31).toNat < 2 := by
      rw [BitVec.toNat_ushiftRight, Nat.shiftRight_eq_div_pow]
      have := z.isLt
      omega
    have h2 : (z >>> 31).toNat = 0 ∨ (z >>> 31).toNat = 1 := by omega
    rcases h2 with h2 | h2
    · left; exact BitVec.eq_of_toNat_eq (by simpa using h2)
    · right; exact BitVec.eq_of_toNat_eq (by simpa using h2)
  exact h _

theorem counters_bits : ∀ (as cs : List W) (b : W), ∀ c ∈ (counters as cs b).1, c = 0 ∨ c = 1
  | [], _, _ => by simp [counters]
  | _ :: _, [], _ => by simp [counters]
  | a :: as, c :: cs, b => by
    intro d hd
    rw [counters] at hd
    rcases List.mem_cons.mp hd with rfl | hd
    · exact sub32_borrow _ _ _
    · exact counters_bits as cs _ d hd

theorem counters_length : ∀ (as cs : List W) (b : W), as.length = cs.length → (counters as cs b).1.length = as.length
  | [], _, _, _ => by simp [counters]
  | _ :: _, [], _, h => by simp at h
  | a :: as, c :: cs, b, h => by
    rw [counters]
    simp [counters_length as cs _ (by simpa using h)]

theorem nextState_c_length (s : St) (h : s.c.length = 8) : (nextState s).c.length = 8 :=
  counters_length _ _ _ h.symm

theorem setupKey_c_length (k : List W) : (setupKey k).c.length = 8 := by
  have : ∀ s : St, s.c.length = 8 → (nextState s).x.length = 8 := fun s _ => rfl
  unfold setupKey
  simp only [List.length_zipWith, List.length_append, List.length_drop, List.length_take]
  rw [nextState_c_length _ (nextState_c_length _ (nextState_c_length _ (nextState_c_length _ rfl))), this]
  · rfl
  · exact (nextState_c_length _ (nextState_c_length _ (nextState_c_length _ rfl)))

/-- C134.  After every step, from every state, each of the eight 32-bit counters is 0 or 1. -/
theorem C134_rabbit_counters (s : St) : ∀ c ∈ (nextState s).c, c = 0 ∨ c = 1 := counters_bits _ _ _

/-- The 8 bytes of a number. -/
def ivOf (n : Fin (2 ^ 64)) : Bytes := leBytes 8 n.val

theorem ivOf_inj {a b : Fin (2 ^ 64)} (h : ivOf a = ivOf b) : a = b := by
  have := congrArg leN h
  rw [ivOf, ivOf, leN_leBytes, leN_leBytes] at this
  have ha := a.isLt
  have hb := b.isLt
  apply Fin.ext
  have e : (256 : Nat) ^ 8 = 2 ^ 64 := by norm_num
  rw [e, Nat.mod_eq_of_lt ha, Nat.mod_eq_of_lt hb] at this
  exact this

/-- What a step remembers of the counters: one bit each, and the carry. -/
def code (s : St) : (Fin 8 → Bool) × Fin (2 ^ 32) :=
  (fun j => decide ((nextState s).c.getD j 0 = 1), (nextState s).carry.toFin)

theorem nextState_eq_of_code (p q : St) (hx : p.x = q.x) (hp : p.c.length = 8) (hq : q.c.length = 8)
    (hf : code p = code q) : nextState p = nextState q := by
  have la := nextState_c_length _ hp
  have lb := nextState_c_length _ hq
  have ha := C134_rabbit_counters p
  have hb := C134_rabbit_counters q
  have hd : ∀ s : St, (nextState s).x = mix (List.zipWith gfunction s.x (nextState s).c) := fun _ => rfl
  have h1 := hd p
  have h2 := hd q
  unfold code at hf
  generalize nextState p = p' at *
  generalize nextState q = q' at *
  have hc : p'.c = q'.c := by
    apply List.ext_getElem (by rw [la, lb])
    intro j h1 h2
    have hj := congrFun (Prod.mk.inj hf).1 ⟨j, by omega⟩
    have ea : p'.c.getD j 0 = p'.c[j] := by
      rw [List.getD_eq_getElem?_getD, List.getElem?_eq_getElem h1]; rfl
    have eb : q'.c.getD j 0 = q'.c[j] := by
      rw [List.getD_eq_getElem?_getD, List.getElem?_eq_getElem h2]; rfl
    simp only [ea, eb, decide_eq_decide] at hj
    have ha := ha _ (List.getElem_mem h1)
    have hb := hb _ (List.getElem_mem h2)
    rcases ha with ha | ha
    · rcases hb with hb | hb
      · rw [ha, hb]
      · have := hj.mpr hb; rw [ha] at this; exact absurd this (by decide)
    · rw [ha, hj.mp ha]
  have hcy : p'.carry = q'.carry := BitVec.eq_of_toFin_eq (Prod.mk.inj hf).2
  have hxx : p'.x = q'.x := by rw [h1, h2, hx, hc]
  cases p'; cases q'
  simp only at hc hcy hxx
  rw [hc, hcy, hxx]

theorem pigeon (f : Fin (2 ^ 64) → (Fin 8 → Bool) × Fin (2 ^ 32)) : ∃ a b, a ≠ b ∧ f a = f b := by
  apply Fintype.exists_ne_map_eq_of_card_lt
  rw [Fintype.card_prod, Fintype.card_fun, Fintype.card_fin, Fintype.card_fin, Fintype.card_fin, Fintype.card_bool]
  norm_num

/-- Two IVs the set-up cannot tell apart. -/
def ivHalves (n : Fin (2 ^ 64)) : List (BitVec 16) :=
  (List.range 4).map fun i => BitVec.ofNat 16 (leN (((ivOf n).drop (i * 2)).take 2))

/-- The state `setupIV` steps from. -/
def preIV (s : St) (v : List (BitVec 16)) : St := { s with c := List.zipWith (· ^^^ ·) s.c (ivWords v) }

theorem setupIV_eq (s : St) (hs : s.c.length = 8) (va vb : List (BitVec 16)) (hf : code (preIV s va) = code (preIV s vb)) :
    setupIV s va = setupIV s vb := by
  have hl : ∀ v, (preIV s v).c.length = 8 := by
    intro v
    rw [preIV, List.length_zipWith, hs]
    rfl
  have h := nextState_eq_of_code (preIV s va) (preIV s vb) rfl (hl va) (hl vb) hf
  have e : ∀ v, setupIV s v = nextState (nextState (nextState (nextState (preIV s v)))) := fun _ => rfl
  rw [e, e, h]

theorem setupIV_collision (s : St) (hs : s.c.length = 8) : ∃ a b : Fin (2 ^ 64), a ≠ b ∧
    setupIV s (ivHalves a) = setupIV s (ivHalves b) := by
  obtain ⟨a, b, hab, hf⟩ := pigeon (fun n => code (preIV s (ivHalves n)))
  exact ⟨a, b, hab, setupIV_eq s hs _ _ hf⟩

/-- C134 is violated: under every key there are two different 8-byte IVs with the same key stream, forever. -/
theorem C134_rabbit_iv_violated (key : Bytes) : ∃ iv iv' : Bytes, iv.length = 8 ∧ iv'.length = 8 ∧ iv ≠ iv' ∧
    ∀ i, keystream key iv i = keystream key iv' i := by
  obtain ⟨a, b, hab, he⟩ := setupIV_collision
    (setupKey ((List.range 4).map fun i => BitVec.ofNat 32 (leN ((key.drop (i * 4)).take 4)))) (setupKey_c_length _)
  refine ⟨ivOf a, ivOf b, by simp [ivOf], by simp [ivOf], fun h => hab (ivOf_inj h), fun i => ?_⟩
  have : expandKey key (ivOf a) = expandKey key (ivOf b) := by
    unfold expandKey
    rw [if_pos (by simp [ivOf]), if_pos (by simp [ivOf])]
    exact he
  unfold keystream
  rw [this]

/-- A concrete pair: the zero key, the IVs `00…00` and `01 00…00`. -/
example : ∀ i, keystream (List.replicate 16 0) (List.replicate 8 0) i = keystream (List.replicate 16 0) (1 :: List.replicate 7 0) i := by
  have : expandKey (List.replicate 16 0) (List.replicate 8 0) = expandKey (List.replicate 16 0) (1 :: List.replicate 7 0) := by
    decide +kernel
  intro i
  unfold keystream
  rw [this]

end Verif.Strm.Rabbit
