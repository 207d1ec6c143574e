import Verif.Cipher.Seed
/-
Model of cipher/kseed (kseed.go, utils.go, sbox.go), a second implementation of SEED with 16-byte keys. Its tables SS0..SS3 and KCi are, word for
word, `ss0`..`ss3` and the first 16 words of `kc` of cipher/seed; the model uses those.
-/
namespace Verif.Cipher.Kseed
open Seed (W St ss0 ss1 ss2 ss3 kc)

/-- utils.go:47-52 `G` -/
def G (x : W) : W :=
  ss3.getD ((x >>> 24) &&& 255).toNat 0 ^^^ ss2.getD ((x >>> 16) &&& 255).toNat 0 ^^^ ss1.getD ((x >>> 8) &&& 255).toNat 0 ^^^ ss0.getD (x &&& 255).toNat 0

/-- utils.go:54-61 `F`: the new values of `*L1` and `*L2`. -/
def F (L1 L2 R1 R2 K1 K2 : W) : W × W :=
  let T2 := G ((R1 ^^^ K1) ^^^ (R2 ^^^ K2))
  let T := G (G (T2 + (R1 ^^^ K1)) + T2)
  (L1 ^^^ (T + G (T2 + (R1 ^^^ K1))), L2 ^^^ T)

/-- utils.go:67-68, with the four round keys at the head of `K`. -/
def twoRounds (P : St) (k : W × W × W × W) : St :=
  let (p0, p1, p2, p3) := P
  let (p0, p1) := F p0 p1 p2 p3 k.1 k.2.1
  let (p2, p3) := F p2 p3 p0 p1 k.2.2.1 k.2.2.2
  (p0, p1, p2, p3)

/-- utils.go:63-72 `rounds`; `K = K[4:]` after each pair. -/
def rounds (P : St) (K : List W) : St :=
  (List.range 8).foldl (fun P i => twoRounds P (K.getD (4 * i) 0, K.getD (4 * i + 1) 0, K.getD (4 * i + 2) 0, K.getD (4 * i + 3) 0)) P

/-- kseed.go:118-146 `expandKey`: the table `K`. -/
def expandKey (key : Bytes) : List W :=
  ((List.range 16).foldl (fun (x : List W × St) i =>
    let (k1, k2, k3, k4) := x.2
    let K := x.1 ++ [G (k1 + k3 - kc.getD i 0), G (k2 - k4 + kc.getD i 0)]
    if i % 2 = 1 then (K, (k1, k2, (k3 <<< 8) ||| (k4 >>> 24), (k4 <<< 8) ||| (k3 >>> 24)))
    else (K, ((k1 >>> 8) ||| (k2 <<< 24), (k2 >>> 8) ||| (k1 <<< 24), k3, k4))) ([], ld4BE 32 4 key)).1
/-- kseed.go:143-144: the table `dK`: `dK[2*(15-i)+b] = K[2*i+b]`. -/
def decKey (K : List W) : List W := (List.range 32).map (fun n => K.getD (2 * (15 - n / 2) + n % 2) 0)

/-- kseed.go:86-116 `encrypt` (with `K`) and `decrypt` (with `dK`) -/
def crypt (K : List W) (s : St) : St :=
  let p := rounds s K
  (p.2.2.1, p.2.2.2, p.1, p.2.1)

def encrypt (key : Bytes) : Bytes → Bytes := enc4BE 32 4 (crypt (expandKey key))
def decrypt (key : Bytes) : Bytes → Bytes := enc4BE 32 4 (crypt (decKey (expandKey key)))

/-- kseed.go:55-61, 77-83: all whole words of `src` are converted, the output has as many words, those after the fourth are zero, and `copy(dst, …)`
writes as much of it as fits in `dst`. -/
def body (f : Bytes → Bytes) (m : Mem) (dst src : Slice) : Res Mem :=
  .ok (m.write dst.ptr ((f (m.read src.ptr 16) ++ List.replicate (4 * (src.len / 4) - 16) 0).take dst.len))

/-- kseed.go:42-62, 64-84: the checks, then the body on the whole slices. -/
def method (f : Bytes → Bytes) (m : Mem) (dst src : Slice) : Res Mem :=
  if src.len < 16 then .panic
  else if dst.len < 16 then .panic
  else if inexactOverlap { dst with len := 16 } { src with len := 16 } then .panic
  else body f m dst src

/-- kseed.go:23-84 -/
def newCipher (key : Bytes) : Res Obj :=
  if key.length = 16 then .ok ⟨16, method (encrypt key), method (decrypt key)⟩ else .err

/-! Proofs: the same permutation as cipher/seed -/

theorem G_eq (x : W) : G x = Seed.g x := by
  unfold G Seed.g
  show _ = ss0.getD (x &&& 255).toNat 0 ^^^ ss1.getD ((x >>> 8) &&& 255).toNat 0 ^^^ ss2.getD ((x >>> 16) &&& 255).toNat 0 ^^^ ss3.getD ((x >>> 24) &&& 255).toNat 0
  ac_rfl

theorem or_xor_lr (a b : W) (n : Nat) (hn : n ≤ 32) : (a <<< n) ||| (b >>> (32 - n)) = (a <<< n) ^^^ (b >>> (32 - n)) := by
  apply BitVec.eq_of_getLsbD_eq
  intro i hi
  simp only [BitVec.getLsbD_or, BitVec.getLsbD_xor, BitVec.getLsbD_shiftLeft, BitVec.getLsbD_ushiftRight]
  by_cases h : i < n
  · simp [h]
  · have : b.getLsbD (32 - n + i) = false := BitVec.getLsbD_of_ge _ _ (by omega)
    simp [this]

theorem F_eq (L1 L2 R1 R2 K1 K2 : W) : F L1 L2 R1 R2 K1 K2 =
    (L1 ^^^ (Seed.processBlock (R1 ^^^ K1) (R2 ^^^ K2)).1, L2 ^^^ (Seed.processBlock (R1 ^^^ K1) (R2 ^^^ K2)).2) := by
  simp only [F, Seed.processBlock, G_eq, BitVec.xor_comm (R2 ^^^ K2) (R1 ^^^ K1)]
  generalize Seed.g (R1 ^^^ K1 ^^^ (R2 ^^^ K2)) = T2
  rw [BitVec.add_comm T2 (R1 ^^^ K1)]
  generalize Seed.g ((R1 ^^^ K1) + T2) = U
  rw [BitVec.add_comm U T2, BitVec.add_comm _ U]

theorem expandKey_eq (key : Bytes) : expandKey key = Seed.expand128 key := by
  unfold expandKey Seed.expand128
  generalize ld4BE 32 4 key = s0
  have : ∀ (l : List Nat) (x : List W × St),
      l.foldl (fun (x : List W × St) i =>
        let (k1, k2, k3, k4) := x.2
        let K := x.1 ++ [G (k1 + k3 - kc.getD i 0), G (k2 - k4 + kc.getD i 0)]
        if i % 2 = 1 then (K, (k1, k2, (k3 <<< 8) ||| (k4 >>> 24), (k4 <<< 8) ||| (k3 >>> 24)))
        else (K, ((k1 >>> 8) ||| (k2 <<< 24), (k2 >>> 8) ||| (k1 <<< 24), k3, k4))) x =
      l.foldl (fun (x : List W × St) i =>
        let (A, B, C, D) := x.2
        let rk := x.1 ++ [Seed.g (A + C - kc.getD i 0), Seed.g (B - D + kc.getD i 0)]
        if i % 2 = 0 then (rk, ((A >>> 8) ^^^ (B <<< 24), (B >>> 8) ^^^ (A <<< 24), C, D))
        else (rk, (A, B, (C <<< 8) ^^^ (D >>> 24), (D <<< 8) ^^^ (C >>> 24)))) x := by
    intro l
    induction l with
    | nil => intro x; rfl
    | cons i l ih =>
      intro x
      obtain ⟨K, A, B, C, D⟩ := x
      rw [List.foldl_cons, List.foldl_cons, ih]
      congr 1
      simp only [G_eq]
      have e1 : ∀ a b : W, (a <<< 8) ||| (b >>> 24) = (a <<< 8) ^^^ (b >>> 24) := fun a b => or_xor_lr a b 8 (by decide)
      have e2 : ∀ a b : W, (a >>> 8) ||| (b <<< 24) = (a >>> 8) ^^^ (b <<< 24) := fun a b => by
        rw [BitVec.or_comm, BitVec.xor_comm]; exact or_xor_lr b a 24 (by decide)
      rcases Nat.mod_two_eq_zero_or_one i with h | h
      · rw [if_neg (by omega), if_pos h, e2, e2]
      · rw [if_pos h, if_neg (by omega), e1, e1]
  rw [this]

/-- A pair of rounds is two rounds of cipher/seed. -/
theorem twoRounds_eq (rk : List W) (P : St) (i : Nat) :
    twoRounds P (rk.getD (4 * i) 0, rk.getD (4 * i + 1) 0, rk.getD (4 * i + 2) 0, rk.getD (4 * i + 3) 0) = Seed.encRound rk (Seed.encRound rk P (2 * i)) (2 * i + 1) := by
  obtain ⟨a, b, c, d⟩ := P
  have h1 : 2 * (2 * i) % 4 = 0 := by omega
  have h2 : ¬ 2 * (2 * i + 1) % 4 = 0 := by omega
  simp only [twoRounds, Seed.encRound, h1, h2, if_true, if_false, F_eq]
  rw [show 2 * (2 * i) = 4 * i from by omega, show 2 * (2 * i + 1) = 4 * i + 2 from by omega]

theorem pairs (f : St → Nat → St) (P : St) : (List.range 8).foldl (fun P i => f (f P (2 * i)) (2 * i + 1)) P = (List.range 16).foldl f P := rfl
theorem pairs' (f : St → Nat → St) (P : St) : (List.range 8).foldl (fun P i => f (f P (15 - 2 * i)) (15 - 2 * i - 1)) P = (List.range 16).reverse.foldl f P := rfl

theorem rounds_eq (rk : List W) (P : St) : rounds P rk = (List.range 16).foldl (Seed.encRound rk) P := by
  unfold rounds
  simp only [twoRounds_eq]
  exact pairs _ _

theorem enc_eq (rk : List W) (s : St) : crypt rk s = Seed.enc rk 16 s := by
  unfold crypt Seed.enc
  rw [rounds_eq]
  rfl

/-- One decryption pair of `dK` is two decryption rounds of cipher/seed. -/
theorem dec_eq (rk : List W) (s : St) : crypt (decKey rk) s = Seed.dec rk 16 s := by
  have hd : ∀ i, i < 8 → (twoRounds · ((decKey rk).getD (4 * i) 0, (decKey rk).getD (4 * i + 1) 0, (decKey rk).getD (4 * i + 2) 0, (decKey rk).getD (4 * i + 3) 0)) =
      fun P => Seed.decRound rk (Seed.decRound rk P (15 - 2 * i)) (15 - 2 * i - 1) := by
    intro i hi
    funext P
    obtain ⟨a, b, c, d⟩ := P
    have g : ∀ n, n < 32 → (decKey rk).getD n 0 = rk.getD (2 * (15 - n / 2) + n % 2) 0 := by
      intro n hn
      simp [decKey, hn]
    have h1 : ¬ 2 * (15 - 2 * i) % 4 = 0 := by omega
    have h2 : 2 * (15 - 2 * i - 1) % 4 = 0 := by omega
    rw [g _ (by omega), g _ (by omega), g _ (by omega), g _ (by omega)]
    simp only [twoRounds, Seed.decRound, h1, h2, if_true, if_false, F_eq,
      show 2 * (15 - 4 * i / 2) + 4 * i % 2 = 2 * (15 - 2 * i) from by omega,
      show 2 * (15 - (4 * i + 1) / 2) + (4 * i + 1) % 2 = 2 * (15 - 2 * i) + 1 from by omega,
      show 2 * (15 - (4 * i + 2) / 2) + (4 * i + 2) % 2 = 2 * (15 - 2 * i - 1) from by omega,
      show 2 * (15 - (4 * i + 3) / 2) + (4 * i + 3) % 2 = 2 * (15 - 2 * i - 1) + 1 from by omega]
  unfold crypt Seed.dec
  have hr : rounds s (decKey rk) = (List.range 16).reverse.foldl (Seed.decRound rk) s := by
    unfold rounds
    have : ∀ (l : List Nat) (P : St), (∀ i ∈ l, i < 8) →
        l.foldl (fun P i => twoRounds P ((decKey rk).getD (4 * i) 0, (decKey rk).getD (4 * i + 1) 0, (decKey rk).getD (4 * i + 2) 0, (decKey rk).getD (4 * i + 3) 0)) P =
        l.foldl (fun P i => Seed.decRound rk (Seed.decRound rk P (15 - 2 * i)) (15 - 2 * i - 1)) P := by
      intro l
      induction l with
      | nil => intros; rfl
      | cons a l ih =>
        intro P h
        rw [List.foldl_cons, List.foldl_cons, ih _ (fun i hi => h i (by simp [hi]))]
        congr 1
        exact congrFun (hd a (h a (by simp))) P
    rw [this _ _ (fun i hi => List.mem_range.1 hi)]
    exact pairs' _ _
  rw [hr]
  rfl

theorem encrypt_eq (key : Bytes) (h : key.length = 16) : encrypt key = Seed.encrypt key := by
  unfold encrypt Seed.encrypt
  have : crypt (expandKey key) = Seed.enc (Seed.sched key) (Seed.rounds key) := by
    funext s
    rw [enc_eq, expandKey_eq, Seed.sched, Seed.rounds, if_pos h, if_pos h]
  rw [this]
theorem decrypt_eq (key : Bytes) (h : key.length = 16) : decrypt key = Seed.decrypt key := by
  unfold decrypt Seed.decrypt
  have : crypt (decKey (expandKey key)) = Seed.dec (Seed.sched key) (Seed.rounds key) := by
    funext s
    rw [dec_eq, expandKey_eq, Seed.sched, Seed.rounds, if_pos h, if_pos h]
  rw [this]

theorem method_short (f : Bytes → Bytes) (lf : ∀ b, b.length = 16 → (f b).length = 16) (m : Mem) (dst src : Slice) (h : src.len < 20 ∨ dst.len = 16) :
    method f m dst src = guarded 16 (whole 16 f) m dst src := by
  unfold method guarded whole body
  by_cases h1 : src.len < 16
  · rw [if_pos h1, if_pos h1]
  · rw [if_neg h1, if_neg h1]
    by_cases h2 : dst.len < 16
    · rw [if_pos h2, if_pos h2]
    · rw [if_neg h2, if_neg h2]
      split
      · rfl
      · have l16 : (f (m.read src.ptr 16)).length = 16 := lf _ (by simp)
        rcases h with h | h
        · rw [show 4 * (src.len / 4) - 16 = 0 from by omega, List.replicate_zero, List.append_nil, List.take_of_length_le (by omega)]
        · rw [h, List.take_append_of_le_length (by omega), List.take_of_length_le (by omega)]

theorem newCipher_seed (key : Bytes) (hk : key.length = 16) : ∃ c s E D, newCipher key = .ok c ∧ c.bs = 16 ∧
    Seed.newCipher key = .ok s ∧ IsBlock 16 s.enc s.dec E D ∧
    ∀ m dst src, (src.len < 20 ∨ dst.len = 16) → c.enc m dst src = s.enc m dst src ∧ c.dec m dst src = s.dec m dst src := by
  have hs : IsBlock 16 (guarded 16 (whole 16 (Seed.encrypt key))) (guarded 16 (whole 16 (Seed.decrypt key))) (Seed.encrypt key) (Seed.decrypt key) := Seed.isBlock key (.inl hk)
  refine ⟨_, ⟨16, guarded 16 (whole 16 (Seed.encrypt key)), guarded 16 (whole 16 (Seed.decrypt key))⟩, _, _, if_pos hk, rfl, if_pos (.inl hk), hs, ?_⟩
  intro m dst src h
  rw [← encrypt_eq key hk, ← decrypt_eq key hk]
  rw [← encrypt_eq key hk, ← decrypt_eq key hk] at hs
  exact ⟨method_short _ hs.lenE m dst src h, method_short _ hs.lenD m dst src h⟩

theorem newCipher_effect (key : Bytes) (hk : key.length = 16) : ∃ (c : Obj) (E D : Bytes → Bytes), newCipher key = .ok c ∧ c.bs = 16 ∧
    (∀ b, b.length = 16 → (E b).length = 16 ∧ (D b).length = 16 ∧ D (E b) = b ∧ E (D b) = b) ∧
    ∀ m (dst src : Slice), 16 ≤ src.len → 16 ≤ dst.len → inexactOverlap { dst with len := 16 } { src with len := 16 } = false →
      c.enc m dst src = .ok (m.write dst.ptr ((E (m.read src.ptr 16) ++ List.replicate (4 * (src.len / 4) - 16) 0).take dst.len)) ∧
      c.dec m dst src = .ok (m.write dst.ptr ((D (m.read src.ptr 16) ++ List.replicate (4 * (src.len / 4) - 16) 0).take dst.len)) := by
  have hs := Seed.isBlock key (.inl hk)
  rw [← encrypt_eq key hk, ← decrypt_eq key hk] at hs
  refine ⟨_, encrypt key, decrypt key, if_pos hk, rfl, fun b hb => ⟨hs.lenE b hb, hs.lenD b hb, hs.DE b hb, hs.ED b hb⟩, ?_⟩
  intro m dst src h1 h2 h3
  simp only [method, if_neg (Nat.not_lt.2 h1), if_neg (Nat.not_lt.2 h2), h3, Bool.false_eq_true, if_false]
  exact ⟨rfl, rfl⟩

theorem not_implements : ¬ Implements newCipher (fun n => n = 16) 16 := by
  intro h
  obtain ⟨c, hc, -, E, D, hb⟩ := (h (List.replicate 16 0)).1 rfl
  obtain ⟨c', E', D', hc', -, hl, hw⟩ := newCipher_effect (List.replicate 16 0) rfl
  rw [hc] at hc'
  cases hc'
  have e1 := (hw (fun _ => 1) ⟨100, 32, 32⟩ ⟨0, 32, 32⟩ (by decide) (by decide) (by decide)).1
  have e2 := hb.enc_eq (fun _ => 1) ⟨100, 32, 32⟩ ⟨0, 32, 32⟩
  rw [if_neg (by decide), e1] at e2
  have e3 := congrFun (Res.ok.inj e2) 116
  have l1 := (hl (Mem.read (fun _ => 1) 0 16) (by simp)).1
  have l2 := hb.lenE (Mem.read (fun _ => 1) 0 16) (by simp)
  have e5 : Mem.write (fun _ => 1) 100 (E (Mem.read (fun _ => 1) 0 16)) 116 = 1 := Mem.write_of_ge _ _ _ _ (by omega)
  have e4 := Mem.write_at (fun _ => 1) 100 ((E' (Mem.read (fun _ => 1) 0 16) ++ List.replicate 16 0).take 32) 16
    (by rw [List.length_take, List.length_append, l1, List.length_replicate]; decide)
  rw [List.getElem_take, List.getElem_append_right (by omega), List.getElem_replicate] at e4
  exact absurd (e4.symm.trans (e3.trans e5)) (by decide)

end Verif.Cipher.Kseed
