import Verif.Pub.LmsOtsLemmas
import Mathlib.Tactic.NormNum
/-
C102: LM-OTS one-time signatures (pubkey/lms/lmots.go): a signature verifies, a key signs once, encodings are inverse to each
other, verification is that of RFC 8554.  C103: the Winternitz coefficients and checksum (pubkey/lms/utils.go): no expansion
lies below another, and what a forgery would give.
-/
namespace Verif.Pub.Lms
open Verif.Cipher Verif.Kdf

/-! ### The built-in parameters -/

/-- pubkey/lms/lmots_params.go:96-177: the parameters with the two hash functions. -/
def otsTable (sha sm3 : HashFn) : List OtsParam := [
  { typ := 1, H := sha, N := 32, W := .w1, P := 265, LS := 7, sigLen := 8516 },
  { typ := 2, H := sha, N := 32, W := .w2, P := 133, LS := 6, sigLen := 4292 },
  { typ := 3, H := sha, N := 32, W := .w4, P := 67, LS := 4, sigLen := 2180 },
  { typ := 4, H := sha, N := 32, W := .w8, P := 34, LS := 0, sigLen := 1124 },
  { typ := 17, H := sm3, N := 32, W := .w1, P := 265, LS := 7, sigLen := 8516 },
  { typ := 18, H := sm3, N := 32, W := .w2, P := 133, LS := 6, sigLen := 4292 },
  { typ := 19, H := sm3, N := 32, W := .w4, P := 67, LS := 4, sigLen := 2180 },
  { typ := 20, H := sm3, N := 32, W := .w8, P := 34, LS := 0, sigLen := 1124 }]

/-- All built-in parameters are as RFC 8554 requires. -/
theorem C102_params (sha sm3 : HashFn) (h1 : sha.size = 32) (h2 : sm3.size = 32) : ∀ p ∈ otsTable sha sm3, Spec.IsOts p := by
  intro p hp
  simp only [otsTable, List.mem_cons, List.not_mem_nil, or_false] at hp
  rcases hp with rfl | rfl | rfl | rfl | rfl | rfl | rfl | rfl <;>
    constructor <;> first | exact h1.symm | exact h2.symm | (simp only [Win.val, OtsParam.sigLength]; norm_num)

/-! ### C102 -/

/-- A chain, written as RFC 8554 does: the steps `a`, `a + 1`, …, `b − 1`. -/
def Spec.walk (H : HashFn) (id : Bytes) (q i a b : Nat) (t : Bytes) : Bytes :=
  (List.range' a (b - a)).foldl (fun t j => H.f (id ++ hx 4 q ++ hx 2 i ++ hx 1 j ++ t)) t

/-- The coefficient of RFC 8554, section 3.1.3. -/
def Spec.coef (S : Bytes) (i w : Nat) : Nat := (S.getD (i * w / 8) 0).toNat / 2 ^ (8 - (w * (i % (8 / w)) + w)) % 2 ^ w

/-- The checksum of RFC 8554, section 4.4. -/
def Spec.checksum (p : OtsParam) (S : Bytes) : Nat :=
  ((List.range (8 * p.N / p.W.val)).map fun i => 2 ^ p.W.val - 1 - Spec.coef S i p.W.val).sum * 2 ^ p.LS

/-- The digits that are signed: of the digest followed by its checksum. -/
def Spec.digit (p : OtsParam) (Q : Bytes) (i : Nat) : Nat := Spec.coef (Q ++ hx 2 (Spec.checksum p Q)) i p.W.val

/-- The digest. -/
def Spec.digest (p : OtsParam) (id : Bytes) (q : Nat) (c msg : Bytes) : Bytes := p.H.f (id ++ hx 4 q ++ dMesg ++ c ++ msg)

/-- The key candidate of RFC 8554, algorithm 4b. -/
def Spec.candidate (p : OtsParam) (id : Bytes) (q : Nat) (c : Bytes) (y : List Bytes) (msg : Bytes) : Bytes :=
  p.H.f (id ++ hx 4 q ++ dPblc ++ (List.range p.P).flatMap fun i =>
    Spec.walk p.H id q i (Spec.digit p (Spec.digest p id q c msg) i) (2 ^ p.W.val - 1) (y.getD i []))

theorem hx_one (j : Nat) : hx 1 j = [BitVec.ofNat 8 j] := by
  simp [hx, leBytes]

theorem chain_walk (H : HashFn) (id : Bytes) (q i n : Nat) : ∀ (j : Nat) (t : Bytes), chain H id q i j n t = Spec.walk H id q i j (j + n) t := by
  induction n with
  | zero => intro j t; simp [Spec.walk, chain]
  | succ n ih =>
    intro j t
    rw [chain, ih, Spec.walk, Spec.walk, show j + (n + 1) - j = n + 1 by omega, show j + 1 + n - (j + 1) = n by omega, List.range'_succ, List.foldl_cons, hx_one]

theorem coef_eq (x : Bytes) (w : Win) {i : Nat} (hi : i < 8 / w.val * x.length) : (coefs x w).getD i 0 = Spec.coef x i w.val := by
  rw [List.getD_eq_getElem _ _ (by simpa using hi)]
  simp only [coefs, List.getElem_map, List.getElem_range, Spec.coef]
  have hd : i * w.val / 8 = i / (8 / w.val) := by
    conv_lhs => rw [← w.per]
    exact Nat.mul_div_mul_right _ _ w.val_pos
  have hs : 8 - (w.val * (i % (8 / w.val)) + w.val) = 8 - w.val - i % (8 / w.val) * w.val := by rw [Nat.mul_comm]; omega
  rw [hd, hs, w.mask_eq, Nat.and_two_pow_sub_one_eq_mod, Nat.shiftRight_eq_div_pow]

theorem cksm_checksum {p : OtsParam} (hp : Spec.IsOts p) (Q : Bytes) (hQ : Q.length = p.N) : cksm (coefs Q p.W) p.W p.LS = Spec.checksum p Q := by
  have hl : 8 / p.W.val * Q.length = 8 * p.N / p.W.val := by rw [hQ]; cases p.W <;> simp [Win.val] <;> omega
  rw [cksm_eq _ _ _ (by rw [coefs_length, hQ]; exact hp.fits), Spec.checksum, ← hl]
  congr 2
  apply List.ext_getElem (by simp)
  intro i h1 h2
  rw [List.length_map, coefs_length] at h1
  simp only [List.getElem_map, List.getElem_range]
  rw [← coef_eq Q p.W h1, List.getD_eq_getElem _ _ (by simpa using h1)]

theorem coefs_append (x y : Bytes) (w : Win) : coefs (x ++ y) w = coefs x w ++ coefs y w := by
  induction x with
  | nil => simp
  | cons b x ih => rw [List.cons_append, coefs_cons, coefs_cons, ih, List.append_assoc]

/-- The expansion is the digits of the specification. -/
theorem expand_digit {p : OtsParam} (hp : Spec.IsOts p) (Q : Bytes) (hQ : Q.length = p.N) :
    ∃ e, expand Q p = .ok e ∧ ∀ i, i < p.P → e.getD i 0 = Spec.digit p Q i := by
  refine ⟨_, expand_ok hp Q hQ, fun i hi => ?_⟩
  have hle := hp.le
  have hl : i < 8 / p.W.val * (Q ++ hx 2 (Spec.checksum p Q)).length := by rw [List.length_append, hx_length, hQ]; omega
  rw [Spec.digit, ← coef_eq _ _ hl, coefs_append, cksm_checksum hp Q hQ, List.getD_eq_getElem _ _ (by simp; rw [← Nat.mul_add, hQ]; omega),
    List.getD_eq_getElem _ _ (by simp; rw [← Nat.mul_add, hQ]; omega), List.getElem_take]

theorem recover_eq {p : OtsParam} (hp : Spec.IsOts p) (c : Bytes) (y : List Bytes) (msg : Bytes) (o : OtsParam) (id : Bytes) (q : Nat) :
    recover { p, c, y } msg o id q =
      if p.typ = o.typ ∧ c.length = p.N ∧ y.length = p.P ∧ ∀ z ∈ y, z.length = p.N then .ok { p, q, id, k := Spec.candidate p id q c y msg } else .err := by
  have hs := hp.size
  rw [recover]
  simp only
  by_cases h1 : p.typ = o.typ
  swap
  · rw [if_pos h1, if_neg (by tauto)]
  by_cases h2 : c.length = p.N
  swap
  · rw [if_neg (by tauto), if_pos (by rw [← hs]; exact h2), if_neg (by tauto)]
  by_cases h3 : y.length = p.P
  swap
  · rw [if_neg (by tauto), if_neg (by rw [← hs]; tauto), if_pos h3, if_neg (by tauto)]
  by_cases h4 : ∀ z ∈ y, z.length = p.N
  swap
  · rw [if_neg (by tauto), if_neg (by rw [← hs]; tauto), if_neg (by tauto), if_pos, if_neg (by tauto)]
    rw [List.any_eq_true]
    push Not at h4
    obtain ⟨z, hz, hzl⟩ := h4
    exact ⟨z, hz, by rw [← hs]; simpa using hzl⟩
  rw [if_neg (by tauto), if_neg (by rw [← hs]; tauto), if_neg (by tauto), if_neg, if_pos ⟨h1, h2, h3, h4⟩]
  · obtain ⟨e, he, hd⟩ := expand_digit hp (p.H.f (id ++ hx 4 q ++ dMesg ++ c ++ msg)) (by rw [p.H.len, hs])
    obtain ⟨e', he', -, hb, -⟩ := expand_spec hp (p.H.f (id ++ hx 4 q ++ dMesg ++ c ++ msg)) (by rw [p.H.len, hs])
    rw [he] at he'
    cases he'
    rw [he, Res.bind_ok, Spec.candidate]
    congr 4
    apply List.flatMap_congr
    intro i hi
    rw [List.mem_range] at hi
    have := getD_le hb i
    rw [chain_walk, hd i hi, Spec.digest]
    rw [hd i hi] at this
    rw [show ∀ a b : Nat, a ≤ b → a + (b - a) = b by intros; omega]
    exact this
  · rw [Bool.not_eq_true, List.any_eq_false]
    intro z hz
    rw [h4 z hz, ← hs]
    simp

/-- C102. Verification: for all keys, messages and signatures it has a verdict, which is that of RFC 8554: the type codes
agree, all elements have the length of the hash, and the key candidate is the public key. -/
theorem C102_verify (pub : OtsPub) (msg : Bytes) (sig : OtsSig) (hp : Spec.IsOts sig.p) :
    ∃ b, otsVerify pub msg sig = .ok b ∧ (b = true ↔ sig.p.typ = pub.p.typ ∧ sig.c.length = sig.p.N ∧ sig.y.length = sig.p.P ∧
      (∀ z ∈ sig.y, z.length = sig.p.N) ∧ Spec.candidate sig.p pub.id pub.q sig.c sig.y msg = pub.k) := by
  rw [otsVerify]
  obtain ⟨p, c, y⟩ := sig
  by_cases h1 : pub.p.typ = p.typ
  · rw [if_neg (by tauto), recover_eq hp]
    by_cases h : p.typ = pub.p.typ ∧ c.length = p.N ∧ y.length = p.P ∧ ∀ z ∈ y, z.length = p.N
    · rw [if_pos h]
      refine ⟨_, rfl, ?_⟩
      simp only [beq_iff_eq]
      exact ⟨fun e => ⟨h.1, h.2.1, h.2.2.1, h.2.2.2, e.symm⟩, fun e => e.2.2.2.2.symm⟩
    · rw [if_neg h]
      exact ⟨_, rfl, by simp only [Bool.false_eq_true, false_iff]; tauto⟩
  · rw [if_pos h1]
    exact ⟨_, rfl, by simp only [Bool.false_eq_true, false_iff]; tauto⟩

/-- C102. Signing with a fresh key, for all parameters, indices, identifiers, seeds, messages and random sources: with a nonce
of the right length given, or none, the result is the error of the random source (the key can then still be used) or a
signature that verifies under the public key, and the key is spent. -/
theorem C102_sign {p : OtsParam} (hp : Spec.IsOts p) (q : Nat) (id seed msg : Bytes) (rd optC : Option Bytes) (hC : ∀ c, optC = some c → c.length = p.N) :
    (optC = none ∧ rd = none ∧ otsSign (newOtsKey p q id seed) rd msg optC = (newOtsKey p q id seed, .err)) ∨
    ∃ key sig, otsSign (newOtsKey p q id seed) rd msg optC = (key, .ok sig) ∧ key.valid = false ∧ key.x = [] ∧ (∀ c, optC = some c → sig.c = c) ∧
      otsVerify (newOtsKey p q id seed).pub msg sig = .ok true := by
  rcases otsSign_fresh hp q id seed msg rd optC with ⟨h, hs⟩ | ⟨c, e, hn, he, hs⟩
  · left
    cases optC with
    | some c => cases h
    | none => cases rd with
      | none => exact ⟨rfl, rfl, hs⟩
      | some b => cases h
  · right
    refine ⟨_, _, hs, rfl, rfl, ?_, ?_⟩
    · intro c' hc'; subst hc'; cases hn; rfl
    · rw [otsVerify, if_neg (by simp [newOtsKey]), show (newOtsKey p q id seed).pub.p = p from rfl, show (newOtsKey p q id seed).pub.id = id from rfl,
        show (newOtsKey p q id seed).pub.q = q from rfl, recover_sign hp q id seed msg c (nonce_length hC hn) e he]
      simp

/-- C102, against the claim that every signature verifies: a nonce of another length given by the caller is used for signing
(the key is spent) but verification rejects the signature. -/
theorem C102_nonce_violated {p : OtsParam} (hp : Spec.IsOts p) (q : Nat) (id seed msg : Bytes) (rd : Option Bytes) (c : Bytes) (hC : c.length ≠ p.N) :
    ∃ key sig, otsSign (newOtsKey p q id seed) rd msg (some c) = (key, .ok sig) ∧ key.valid = false ∧
      otsVerify (newOtsKey p q id seed).pub msg sig = .ok false := by
  rcases otsSign_fresh hp q id seed msg rd (some c) with ⟨h, -⟩ | ⟨c', e, hn, he, hs⟩
  · cases h
  cases hn
  refine ⟨_, _, hs, rfl, ?_⟩
  rw [otsVerify, if_neg (by simp [newOtsKey]), recover_eq hp, if_neg (by tauto)]

/-- A history of calls of `SignToSignature` on one key: the signatures returned. -/
def otsRun : OtsKey → List (Option Bytes × Bytes × Option Bytes) → OtsKey × List OtsSig
  | key, [] => (key, [])
  | key, (rd, msg, optC) :: calls =>
    let (key, r) := otsSign key rd msg optC
    let (key', sigs) := otsRun key calls
    (key', match r with | .ok s => s :: sigs | _ => sigs)

theorem otsRun_spent (key : OtsKey) (h : key.valid = false) (calls : List (Option Bytes × Bytes × Option Bytes)) : otsRun key calls = (key, []) := by
  induction calls with
  | nil => rfl
  | cons c calls ih =>
    obtain ⟨rd, msg, optC⟩ := c
    rw [otsRun]
    simp only [otsSign, h, Bool.not_false, if_true, ih]

/-- C102. One signature per key: over every history of calls on one key, whatever its parameters and state, at most one
signature is returned. -/
theorem C102_once (key : OtsKey) (calls : List (Option Bytes × Bytes × Option Bytes)) : (otsRun key calls).2.length ≤ 1 := by
  induction calls generalizing key with
  | nil => simp [otsRun]
  | cons c calls ih =>
    obtain ⟨rd, msg, optC⟩ := c
    rw [otsRun]
    rcases hs : otsSign key rd msg optC with ⟨key', r⟩
    simp only
    cases r with
    | ok s =>
      have hv : key'.valid = false := by
        rw [otsSign] at hs
        split at hs
        · cases hs
        · simp only at hs
          split at hs
          · cases hs
          · split at hs <;> cases hs
            rfl
      rw [otsRun_spent key' hv]
      simp
    | err => exact ih key'
    | panic => exact ih key'
    | hang => exact ih key'

theorem flatMap_getD (l : List Bytes) : (List.range l.length).flatMap (fun i => l.getD i []) = l.flatten := by
  induction l with
  | nil => rfl
  | cons a l ih =>
    rw [List.length_cons, List.range_succ_eq_map, List.flatMap_cons, List.flatMap_map, List.flatten_cons, ← ih]
    rfl

theorem slices_flatten (m : Nat) : ∀ (l : List Bytes) (t : Bytes), (∀ z ∈ l, z.length = m) → slices m l.length (l.flatten ++ t) = l
  | [], _, _ => rfl
  | a :: l, t, h => by
    have ha := h a (List.mem_cons_self ..)
    rw [List.length_cons, slices, List.flatten_cons, List.append_assoc, List.take_left' ha, List.drop_left' ha,
      slices_flatten m l t fun z hz => h z (List.mem_cons_of_mem _ hz)]

theorem flatten_length {m : Nat} : ∀ {l : List Bytes}, (∀ z ∈ l, z.length = m) → l.flatten.length = l.length * m
  | [], _ => by simp
  | a :: l, h => by
    rw [List.flatten_cons, List.length_append, flatten_length fun z hz => h z (List.mem_cons_of_mem _ hz), h a (List.mem_cons_self ..), List.length_cons, Nat.succ_mul]
    omega

theorem slices_spec (m : Nat) : ∀ (n : Nat) (b : Bytes), n * m ≤ b.length → (slices m n b).length = n ∧ (∀ z ∈ slices m n b, z.length = m) ∧ (slices m n b).flatten = b.take (n * m)
  | 0, b, _ => by simp [slices]
  | n + 1, b, h => by
    rw [Nat.succ_mul] at h
    obtain ⟨h1, h2, h3⟩ := slices_spec m n (b.drop m) (by rw [List.length_drop]; omega)
    refine ⟨by rw [slices, List.length_cons, h1], ?_, ?_⟩
    · intro z hz
      rw [slices, List.mem_cons] at hz
      rcases hz with rfl | hz
      · rw [List.length_take]; omega
      · exact h2 z hz
    · rw [slices, List.flatten_cons, h3, Nat.succ_mul, Nat.add_comm, List.take_add]

/-- A signature whose elements have the right lengths. -/
structure Spec.OtsShape (sig : OtsSig) : Prop where
  c : sig.c.length = sig.p.N
  y : sig.y.length = sig.p.P
  each : ∀ z ∈ sig.y, z.length = sig.p.N

theorem otsSigBytes_eq (sig : OtsSig) (hs : Spec.OtsShape sig) : otsSigBytes sig = hx 4 sig.p.typ ++ sig.c ++ sig.y.flatten := by
  rw [otsSigBytes, ← hs.y, flatMap_getD]

theorem otsSigBytes_length (sig : OtsSig) (hp : Spec.IsOts sig.p) (hs : Spec.OtsShape sig) : (otsSigBytes sig).length = sig.p.sigLength := by
  rw [otsSigBytes_eq sig hs, hp.len]
  simp only [List.length_append, hx_length, hs.c, flatten_length hs.each, hs.y]

theorem parseOtsSig_bytes (reg : Reg) (sig : OtsSig) (hp : Spec.IsOts sig.p) (hreg : reg.ots sig.p.typ = some sig.p) (hs : Spec.OtsShape sig) :
    parseOtsSig reg (otsSigBytes sig) = .ok sig := by
  have hl := otsSigBytes_length sig hp hs
  have hlen := hp.len
  rw [parseOtsSig, hl, if_neg (by omega), otsSigBytes_eq sig hs, List.append_assoc, List.take_left' (hx_length 4 _), setBytes_hx _ _ hp.typ, hreg]
  simp only [Nat.lt_irrefl, if_false]
  rw [if_neg (by omega), List.drop_left' (hx_length 4 _), List.take_left' hs.c, ← List.append_assoc, List.drop_left' (by simp [hs.c])]
  have := slices_flatten sig.p.N sig.y [] hs.each
  rw [List.append_nil, hs.y] at this
  rw [this]

/-- The registered parameters have the type codes they are registered under and are as RFC 8554 requires. -/
def Spec.IsReg (reg : Reg) : Prop := ∀ t p, reg.ots t = some p → p.typ = t ∧ Spec.IsOts p

/-- C102. `NewLmotsSignatureFromBytes` accepts or returns an error, on every input; it accepts exactly the encodings of
signatures of registered types with elements of the right lengths, and `ToBytes` gives the bytes back. -/
theorem C102_bytes (reg : Reg) (hreg : Spec.IsReg reg) (b : Bytes) :
    (parseOtsSig reg b = .err ∧ ¬ ∃ sig, Spec.OtsShape sig ∧ reg.ots sig.p.typ = some sig.p ∧ otsSigBytes sig = b) ∨
    ∃ sig, parseOtsSig reg b = .ok sig ∧ Spec.OtsShape sig ∧ reg.ots sig.p.typ = some sig.p ∧ otsSigBytes sig = b := by
  have hno : parseOtsSig reg b = .err → ¬ ∃ sig, Spec.OtsShape sig ∧ reg.ots sig.p.typ = some sig.p ∧ otsSigBytes sig = b := by
    rintro h ⟨sig, hs, hr, rfl⟩
    rw [parseOtsSig_bytes reg sig (hreg _ _ hr).2 hr hs] at h
    cases h
  suffices parseOtsSig reg b = .err ∨ ∃ sig, parseOtsSig reg b = .ok sig ∧ Spec.OtsShape sig ∧ reg.ots sig.p.typ = some sig.p ∧ otsSigBytes sig = b by
    rcases this with h | h
    · exact .inl ⟨h, hno h⟩
    · exact .inr h
  rw [parseOtsSig]
  split
  · exact .inl rfl
  rename_i h4
  split
  · exact .inl rfl
  rename_i p hr
  split
  · exact .inl rfl
  split
  · exact .inl rfl
  obtain ⟨ht, hp⟩ := hreg _ _ hr
  have hlen := hp.len
  rw [if_neg (by omega)]
  obtain ⟨h1, h2, h3⟩ := slices_spec p.N p.P (b.drop (4 + p.N)) (by rw [List.length_drop]; omega)
  have hs : Spec.OtsShape { p, c := (b.drop 4).take p.N, y := slices p.N p.P (b.drop (4 + p.N)) } := ⟨by simp; omega, h1, h2⟩
  refine .inr ⟨_, rfl, hs, by rw [← ht] at hr; exact hr, ?_⟩
  rw [otsSigBytes_eq _ hs]
  simp only
  have e4 : hx 4 p.typ = b.take 4 := by
    have := hx_setBytes (b.take 4)
    rw [List.length_take, Nat.min_eq_left (by omega)] at this
    rw [ht, this]
  have e5 : (b.drop (4 + p.N)).take (p.P * p.N) = b.drop (4 + p.N) := List.take_of_length_le (by rw [List.length_drop]; omega)
  rw [h3, e4, e5, ← List.take_add, List.take_append_drop]

/-- C102. The signature as bytes: what `Sign` returns is accepted by `Verify`. -/
theorem C102_sign_bytes (reg : Reg) {p : OtsParam} (hp : Spec.IsOts p) (hreg : reg.ots p.typ = some p) (q : Nat) (id seed msg : Bytes) (rd optC : Option Bytes)
    (hC : ∀ c, optC = some c → c.length = p.N) (key : OtsKey) (sig : OtsSig) (h : otsSign (newOtsKey p q id seed) rd msg optC = (key, .ok sig)) :
    (otsSigBytes sig).length = p.sigLength ∧ otsVerifyBytes reg (newOtsKey p q id seed).pub msg (otsSigBytes sig) = .ok true := by
  rcases C102_sign hp q id seed msg rd optC hC with ⟨-, -, h'⟩ | ⟨key', sig', h', -, -, -, hv⟩
  · rw [h'] at h; cases h
  rw [h'] at h
  cases h
  have hsp : sig.p = p := by
    rcases otsSign_fresh hp q id seed msg rd optC with ⟨-, hs⟩ | ⟨c, e, -, -, hs⟩
    · rw [h'] at hs; cases hs
    · rw [h'] at hs; cases hs; rfl
  obtain ⟨b, hb, hbi⟩ := C102_verify (newOtsKey p q id seed).pub msg sig (by rw [hsp]; exact hp)
  rw [hv] at hb
  cases hb
  obtain ⟨-, h1, h2, h3, -⟩ := hbi.mp rfl
  have hs : Spec.OtsShape sig := ⟨h1, h2, h3⟩
  refine ⟨by rw [← hsp]; exact otsSigBytes_length sig (by rw [hsp]; exact hp) hs, ?_⟩
  rw [otsVerifyBytes, parseOtsSig_bytes reg sig (by rw [hsp]; exact hp) (by rw [hsp]; exact hreg) hs]
  exact hv

/-- C102. The public key as bytes. -/
theorem C102_pub_bytes (reg : Reg) (pub : OtsPub) (hp : Spec.IsOts pub.p) (hreg : reg.ots pub.p.typ = some pub.p) (hid : pub.id.length = 16) (hk : pub.k.length = pub.p.N)
    (hq : pub.q < 2 ^ 32) : parseOtsPub reg (otsPubBytes pub) = .ok pub := by
  have hl : (otsPubBytes pub).length = 4 + 16 + 4 + pub.p.N := by simp [otsPubBytes, hid, hk]; omega
  rw [parseOtsPub, hl, if_neg (by omega)]
  simp only [otsPubBytes, List.append_assoc]
  rw [List.take_left' (hx_length 4 _), setBytes_hx _ _ hp.typ, hreg]
  simp only [Nat.lt_irrefl, gt_iff_lt, if_false]
  rw [List.drop_left' (hx_length 4 _), List.take_left' hid]
  have e1 : (hx 4 pub.p.typ ++ (pub.id ++ (hx 4 pub.q ++ pub.k))).drop 20 = hx 4 pub.q ++ pub.k := by
    rw [← List.append_assoc, List.drop_left' (by simp [hid])]
  have e2 : (hx 4 pub.p.typ ++ (pub.id ++ (hx 4 pub.q ++ pub.k))).drop 24 = pub.k := by
    rw [show 24 = 20 + 4 from rfl, ← List.drop_drop, e1, List.drop_left' (hx_length 4 _)]
  rw [e1, e2, List.take_left' (hx_length 4 _), setBytes_hx _ _ hq]

/-- A small hash function and small parameters to test statements on. -/
def toyH : HashFn where
  f m := [m.foldl (fun a b => a * 3 + b) 5#8]
  size := 1
  block := 4
  pos := by decide
  len _ := rfl

def toyOts : OtsParam := { typ := 3, H := toyH, N := 1, W := .w4, P := 5, LS := 4, sigLen := 0 }

theorem toyOts_isOts : Spec.IsOts toyOts := by
  constructor <;> decide

def toyId : Bytes := (List.range 16).map (BitVec.ofNat 8)

example : (otsSign (newOtsKey toyOts 2 toyId [1, 2, 3]) (some [9, 8]) [7, 7] none).2 matches .ok _ := by decide +kernel
example : (otsSign (otsSign (newOtsKey toyOts 2 toyId [1, 2, 3]) (some [9]) [7] none).1 (some [9]) [8] none).2 matches .err := by decide +kernel
example : Spec.IsOts ((otsTable toyH toyH).getD 0 toyOts) → False := fun h => absurd h.size (by decide)

/-! ### C103 -/

theorem digits_le {B : Nat} : ∀ {l m : List Nat}, List.Forall₂ (· ≤ ·) l m → digits B l ≤ digits B m := by
  intro l m h
  induction h with
  | nil => exact le_refl _
  | cons hab hlm ih =>
    rw [digits_cons, digits_cons, hlm.length_eq]
    exact Nat.add_le_add (Nat.mul_le_mul_right _ hab) ih

theorem digits_lt {B : Nat} : ∀ {l : List Nat}, (∀ c ∈ l, c < B) → digits B l < B ^ l.length := by
  intro l
  induction l with
  | nil => intro _; simp [digits]
  | cons c l ih =>
    intro h
    have h1 := h c (List.mem_cons_self ..)
    have h2 := ih fun d hd => h d (List.mem_cons_of_mem _ hd)
    rw [digits_cons, List.length_cons, pow_succ]
    calc c * B ^ l.length + digits B l < c * B ^ l.length + B ^ l.length := by omega
      _ = (c + 1) * B ^ l.length := by ring
      _ ≤ B * B ^ l.length := Nat.mul_le_mul_right _ h1
      _ = B ^ l.length * B := by ring

theorem sum_compl {B : Nat} : ∀ {l m : List Nat}, List.Forall₂ (· ≤ ·) l m → (∀ c ∈ m, c ≤ B) →
    (m.map fun a => B - a).sum ≤ (l.map fun a => B - a).sum ∧ ((m.map fun a => B - a).sum = (l.map fun a => B - a).sum → l = m) := by
  intro l m h
  induction h with
  | nil => intro _; exact ⟨le_refl _, fun _ => rfl⟩
  | @cons a b l m hab hlm ih =>
    intro hc
    obtain ⟨h1, h2⟩ := ih fun c hc' => hc c (List.mem_cons_of_mem _ hc')
    have hb := hc b (List.mem_cons_self ..)
    simp only [List.map_cons, List.sum_cons]
    refine ⟨by omega, fun he => ?_⟩
    rw [h2 (by omega), show a = b by omega]

/-- C103. No expansion lies below another: if every coefficient of the expansion of one digest is at most that of another,
the digests are equal.  So a signature cannot be turned into one of another digest by continuing its chains. -/
theorem C103_antichain {p : OtsParam} (hp : Spec.IsOts p) (Q Q' : Bytes) (hQ : Q.length = p.N) (hQ' : Q'.length = p.N) (e e' : List Nat)
    (he : expand Q p = .ok e) (he' : expand Q' p = .ok e') (h : ∀ i, i < p.P → e.getD i 0 ≤ e'.getD i 0) : Q = Q' := by
  have hen := hp.enough
  have hle := hp.le
  have hsh := hp.shift
  have hmul : 8 / p.W.val * (p.N + 2) = 8 / p.W.val * p.N + 8 / p.W.val * 2 := Nat.mul_add ..
  obtain ⟨e0, h0, hl, -, ht⟩ := expand_spec hp Q hQ
  rw [he] at h0; cases h0
  obtain ⟨e0, h0, hl', -, ht'⟩ := expand_spec hp Q' hQ'
  rw [he'] at h0; cases h0
  have hF : List.Forall₂ (· ≤ ·) e e' := by
    rw [List.forall₂_iff_get]
    refine ⟨by rw [hl, hl'], fun i h1 h2 => ?_⟩
    have := h i (by omega)
    rwa [List.getD_eq_getElem _ _ h1, List.getD_eq_getElem _ _ h2] at this
  have hF1 : List.Forall₂ (· ≤ ·) (coefs Q p.W) (coefs Q' p.W) := by
    rw [← ht, ← ht']; exact List.forall₂_take _ hF
  obtain ⟨hs1, hs2⟩ := sum_compl hF1 (coefs_le Q' p.W)
  -- the checksum digits that are kept
  have hdrop : ∀ {Q : Bytes} {e : List Nat}, Q.length = p.N → expand Q p = .ok e →
      e.drop (8 / p.W.val * p.N) = (coefs (hx 2 (cksm (coefs Q p.W) p.W p.LS)) p.W).take (p.P - 8 / p.W.val * p.N) := by
    intro Q e hQ he
    rw [expand_ok hp Q hQ] at he
    cases he
    rw [List.drop_take, List.drop_left' (by rw [coefs_length, hQ])]
  -- and the number they are
  have hnum : ∀ {Q : Bytes} {e : List Nat}, Q.length = p.N → expand Q p = .ok e →
      digits (2 ^ p.W.val) (e.drop (8 / p.W.val * p.N)) * 2 ^ ((8 / p.W.val * (p.N + 2) - p.P) * p.W.val) =
        ((coefs Q p.W).map fun a => 2 ^ p.W.val - 1 - a).sum * 2 ^ p.LS := by
    intro Q e hQ he
    rw [hdrop hQ he]
    have hck := cksm_eq (coefs Q p.W) p.W p.LS (by rw [coefs_length, hQ]; exact hp.fits)
    have hlt : cksm (coefs Q p.W) p.W p.LS < 256 ^ 2 := by rw [cksm]; exact Nat.mod_lt _ (by decide)
    have hval := coefs_digits (hx 2 (cksm (coefs Q p.W) p.W p.LS)) p.W
    rw [setBytes_hx _ _ hlt] at hval
    generalize hD : coefs (hx 2 (cksm (coefs Q p.W) p.W p.LS)) p.W = D at *
    have hDl : D.length = 8 / p.W.val * 2 := by rw [← hD, coefs_length, hx_length]
    have hDc : ∀ c ∈ D, c < 2 ^ p.W.val := by
      intro c hc
      rw [← hD] at hc
      have := coefs_le _ _ c hc
      have := Nat.two_pow_pos p.W.val
      omega
    rw [← List.take_append_drop (p.P - 8 / p.W.val * p.N) D, digits_append, List.length_drop, hDl, hck] at hval
    rw [show 8 / p.W.val * 2 - (p.P - 8 / p.W.val * p.N) = 8 / p.W.val * (p.N + 2) - p.P by omega, ← pow_mul] at hval
    have hdl := digits_lt (B := 2 ^ p.W.val) (l := D.drop (p.P - 8 / p.W.val * p.N)) fun c hc => hDc c (List.mem_of_mem_drop hc)
    rw [List.length_drop, hDl, show 8 / p.W.val * 2 - (p.P - 8 / p.W.val * p.N) = 8 / p.W.val * (p.N + 2) - p.P by omega, ← pow_mul] at hdl
    rw [Nat.mul_comm p.W.val] at hval hdl
    have hdvd : 2 ^ ((8 / p.W.val * (p.N + 2) - p.P) * p.W.val) ∣ ((coefs Q p.W).map fun a => 2 ^ p.W.val - 1 - a).sum * 2 ^ p.LS :=
      Dvd.dvd.mul_left (pow_dvd_pow 2 hsh) _
    rw [← hval] at hdvd
    have hz := Nat.eq_zero_of_dvd_of_lt ((Nat.dvd_add_right (Dvd.intro_left _ rfl)).mp hdvd) hdl
    rw [hz, Nat.add_zero] at hval
    exact hval
  have hd := digits_le (B := 2 ^ p.W.val) (List.forall₂_drop (8 / p.W.val * p.N) hF)
  have h1 := hnum hQ he
  have h2 := hnum hQ' he'
  have h3 := Nat.mul_le_mul_right (2 ^ ((8 / p.W.val * (p.N + 2) - p.P) * p.W.val)) hd
  rw [h1, h2] at h3
  have h4 := Nat.le_of_mul_le_mul_right h3 (Nat.two_pow_pos p.LS)
  exact coefs_inj (by rw [hQ, hQ']) (hs2 (le_antisymm hs1 h4))

example : expand [0x2f] toyOts = .ok [2, 15, 0, 0, 13] ∧ expand [0x3f] toyOts = .ok [3, 15, 0, 0, 12] := by decide +kernel

/-- The inputs of the hash function along a chain. -/
def Spec.chainInputs (H : HashFn) (id : Bytes) (q i : Nat) : Nat → Nat → Bytes → List Bytes
  | _, 0, _ => []
  | j, n + 1, t =>
    let a := id ++ hx 4 q ++ hx 2 i ++ hx 1 j ++ t
    a :: Spec.chainInputs H id q i (j + 1) n (H.f a)

/-- The inputs of the hash function in the verification of a signature: the message, the chains, the ends of the chains. -/
def Spec.inputs (p : OtsParam) (id : Bytes) (q : Nat) (c : Bytes) (y : List Bytes) (msg : Bytes) : List Bytes :=
  let d := Spec.digit p (Spec.digest p id q c msg)
  [id ++ hx 4 q ++ dMesg ++ c ++ msg] ++
  ((List.range p.P).flatMap fun i => Spec.chainInputs p.H id q i (d i) (2 ^ p.W.val - 1 - d i) (y.getD i [])) ++
  [id ++ hx 4 q ++ dPblc ++ (List.range p.P).flatMap fun i => Spec.walk p.H id q i (d i) (2 ^ p.W.val - 1) (y.getD i [])]

theorem flatMap_inj {α : Type} {f g : α → Bytes} {m : Nat} : ∀ {l : List α}, (∀ i ∈ l, (f i).length = m) → (∀ i ∈ l, (g i).length = m) →
    l.flatMap f = l.flatMap g → ∀ i ∈ l, f i = g i
  | [], _, _, _, i, hi => by cases hi
  | a :: l, hf, hg, h, i, hi => by
    rw [List.flatMap_cons, List.flatMap_cons] at h
    obtain ⟨h1, h2⟩ := List.append_inj h (by rw [hf a (List.mem_cons_self ..), hg a (List.mem_cons_self ..)])
    rcases List.mem_cons.mp hi with rfl | hi
    · exact h1
    · exact flatMap_inj (fun i hi => hf i (List.mem_cons_of_mem _ hi)) (fun i hi => hg i (List.mem_cons_of_mem _ hi)) h2 i hi

/-- Two chains from the same step with the same end start with the same value or show a collision. -/
theorem chain_collision (H : HashFn) (id : Bytes) (q i n : Nat) : ∀ (j : Nat) (s t : Bytes), chain H id q i j n s = chain H id q i j n t →
    s = t ∨ ∃ a ∈ Spec.chainInputs H id q i j n s, ∃ b ∈ Spec.chainInputs H id q i j n t, a ≠ b ∧ H.f a = H.f b := by
  induction n with
  | zero => intro j s t h; exact .inl h
  | succ n ih =>
    intro j s t h
    rw [chain, chain, ← hx_one] at h
    rcases ih _ _ _ h with he | ⟨a, ha, b, hb, hne, he⟩
    · by_cases hst : s = t
      · exact .inl hst
      · refine .inr ⟨_, List.mem_cons_self .., _, List.mem_cons_self .., ?_, he⟩
        intro hab
        exact hst (List.append_cancel_left hab)
    · exact .inr ⟨a, List.mem_cons_of_mem _ ha, b, List.mem_cons_of_mem _ hb, hne, he⟩

theorem chainInputs_add (H : HashFn) (id : Bytes) (q i a b : Nat) : ∀ (j : Nat) (t : Bytes),
    Spec.chainInputs H id q i j (a + b) t = Spec.chainInputs H id q i j a t ++ Spec.chainInputs H id q i (j + a) b (chain H id q i j a t) := by
  induction a with
  | zero => intro j t; rw [Nat.zero_add, Nat.add_zero]; rfl
  | succ a ih =>
    intro j t
    rw [show a + 1 + b = a + b + 1 by omega, Spec.chainInputs, Spec.chainInputs, chain, ih, hx_one, show j + 1 + a = j + (a + 1) by omega]
    rfl

/-- C103. What a forgery gives.  Let `(c, y)` be a signature of `msg` and `(c', y')` one of `msg'`, both accepted under the
same key, with another nonce or message.  Then the hash inputs of the two verifications contain a collision, or those of the
second contain, for one of the chains, a preimage of the value `y i` of the first: the element before it in the chain, which
the first signature does not disclose. -/
theorem C103_forgery (pub : OtsPub) (p : OtsParam) (hp : Spec.IsOts p) (msg msg' c c' : Bytes) (y y' : List Bytes)
    (h : otsVerify pub msg { p, c, y } = .ok true) (h' : otsVerify pub msg' { p, c := c', y := y' } = .ok true) (hne : (c', msg') ≠ (c, msg)) :
    (∃ a ∈ Spec.inputs p pub.id pub.q c y msg, ∃ b ∈ Spec.inputs p pub.id pub.q c' y' msg', a ≠ b ∧ p.H.f a = p.H.f b) ∨
    ∃ i t, i < p.P ∧ 0 < Spec.digit p (Spec.digest p pub.id pub.q c msg) i ∧
      pub.id ++ hx 4 pub.q ++ hx 2 i ++ hx 1 (Spec.digit p (Spec.digest p pub.id pub.q c msg) i - 1) ++ t ∈ Spec.inputs p pub.id pub.q c' y' msg' ∧
      p.H.f (pub.id ++ hx 4 pub.q ++ hx 2 i ++ hx 1 (Spec.digit p (Spec.digest p pub.id pub.q c msg) i - 1) ++ t) = y.getD i [] := by
  obtain ⟨b, hb, hbi⟩ := C102_verify pub msg { p, c, y } hp
  rw [h] at hb; cases hb
  obtain ⟨-, hc, hy, hyl, hk⟩ := hbi.mp rfl
  obtain ⟨b, hb, hbi'⟩ := C102_verify pub msg' { p, c := c', y := y' } hp
  rw [h'] at hb; cases hb
  obtain ⟨-, hc', hy', hyl', hk'⟩ := hbi'.mp rfl
  simp only at hc hy hyl hk hc' hy' hyl' hk'
  generalize pub.id = id at *
  generalize pub.q = q at *
  generalize pub.k = k at *
  -- the expansions
  have hdl : ∀ c msg, (Spec.digest p id q c msg).length = p.N := fun c msg => by rw [Spec.digest, p.H.len, hp.size]
  obtain ⟨e, he, hd⟩ := expand_digit hp _ (hdl c msg)
  obtain ⟨e', he', hd'⟩ := expand_digit hp _ (hdl c' msg')
  have hbd : ∀ i, e.getD i 0 ≤ 2 ^ p.W.val - 1 := by
    obtain ⟨e0, h0, -, hb, -⟩ := expand_spec hp _ (hdl c msg)
    rw [he] at h0; cases h0
    exact getD_le hb
  have hbd' : ∀ i, e'.getD i 0 ≤ 2 ^ p.W.val - 1 := by
    obtain ⟨e0, h0, -, hb, -⟩ := expand_spec hp _ (hdl c' msg')
    rw [he'] at h0; cases h0
    exact getD_le hb
  by_cases hdig : Spec.digest p id q c msg = Spec.digest p id q c' msg'
  · -- equal digests: a collision of the message inputs
    left
    refine ⟨_, by rw [Spec.inputs]; simp only [List.cons_append]; exact List.mem_cons_self .., _, by rw [Spec.inputs]; simp only [List.cons_append]; exact List.mem_cons_self .., ?_, hdig⟩
    intro hab
    simp only [List.append_assoc] at hab
    have := List.append_cancel_left (List.append_cancel_left (List.append_cancel_left hab))
    obtain ⟨h1, h2⟩ := List.append_inj this (by rw [hc, hc'])
    exact hne (by rw [h1, h2])
  by_cases hends : (List.range p.P).flatMap (fun i => Spec.walk p.H id q i (Spec.digit p (Spec.digest p id q c msg) i) (2 ^ p.W.val - 1) (y.getD i [])) =
      (List.range p.P).flatMap (fun i => Spec.walk p.H id q i (Spec.digit p (Spec.digest p id q c' msg') i) (2 ^ p.W.val - 1) (y'.getD i []))
  swap
  · -- different ends: a collision of the last inputs
    left
    refine ⟨_, by rw [Spec.inputs]; exact List.mem_append_right _ (List.mem_singleton.mpr rfl), _,
      by rw [Spec.inputs]; exact List.mem_append_right _ (List.mem_singleton.mpr rfl), ?_, ?_⟩
    · intro hab
      exact hends (List.append_cancel_left hab)
    · rw [Spec.candidate] at hk hk'
      rw [hk, hk']
  -- equal ends of all chains
  have hmem : ∀ {y : List Bytes} {i : Nat}, y.length = p.P → (∀ z ∈ y, z.length = p.N) → i < p.P → (y.getD i []).length = p.H.size := by
    intro y i hy hyl hi
    rw [List.getD_eq_getElem _ _ (by omega), hyl _ (List.getElem_mem _), hp.size]
  have hwl : ∀ {y : List Bytes} {d : Nat → Nat}, y.length = p.P → (∀ z ∈ y, z.length = p.N) → (∀ i, i < p.P → d i ≤ 2 ^ p.W.val - 1) → ∀ i ∈ List.range p.P,
      (Spec.walk p.H id q i (d i) (2 ^ p.W.val - 1) (y.getD i [])).length = p.H.size := by
    intro y d hy hyl hd i hi
    have hi := List.mem_range.mp hi
    have := chain_walk p.H id q i (2 ^ p.W.val - 1 - d i) (d i) (y.getD i [])
    rw [show d i + (2 ^ p.W.val - 1 - d i) = 2 ^ p.W.val - 1 by have := hd i hi; omega] at this
    rw [← this]
    exact chain_length _ _ _ _ _ _ _ (hmem hy hyl hi)
  have hcat := flatMap_inj (hwl hy hyl fun i hi => by rw [← hd i hi]; exact hbd i) (hwl hy' hyl' fun i hi => by rw [← hd' i hi]; exact hbd' i) hends
  -- an index where the second digit is smaller
  obtain ⟨i, hi, hlt⟩ : ∃ i, i < p.P ∧ e'.getD i 0 < e.getD i 0 := by
    by_contra hno
    push Not at hno
    exact hdig (C103_antichain hp _ _ (hdl c msg) (hdl c' msg') e e' he he' hno)
  have hc1 := hcat i (List.mem_range.mpr hi)
  have hE := hbd i
  rw [hd i hi] at hlt hE
  rw [hd' i hi] at hlt
  generalize hD : Spec.digit p (Spec.digest p id q c msg) i = D at *
  generalize hD' : Spec.digit p (Spec.digest p id q c' msg') i = D' at *
  have hw : ∀ (d : Nat) (t : Bytes), d ≤ 2 ^ p.W.val - 1 → Spec.walk p.H id q i d (2 ^ p.W.val - 1) t = chain p.H id q i d (2 ^ p.W.val - 1 - d) t := by
    intro d t hdt
    rw [chain_walk, show d + (2 ^ p.W.val - 1 - d) = 2 ^ p.W.val - 1 by omega]
  rw [hw D _ hE, hw D' _ (by omega), show 2 ^ p.W.val - 1 - D' = (D - D') + (2 ^ p.W.val - 1 - D) by omega, chain_add, show D' + (D - D') = D by omega] at hc1
  have hin' : Spec.chainInputs p.H id q i D' (2 ^ p.W.val - 1 - D') (y'.getD i []) =
      Spec.chainInputs p.H id q i D' (D - D') (y'.getD i []) ++ Spec.chainInputs p.H id q i D (2 ^ p.W.val - 1 - D) (chain p.H id q i D' (D - D') (y'.getD i [])) := by
    rw [show 2 ^ p.W.val - 1 - D' = (D - D') + (2 ^ p.W.val - 1 - D) by omega, chainInputs_add, show D' + (D - D') = D by omega]
  have hsub : ∀ a, a ∈ Spec.chainInputs p.H id q i D (2 ^ p.W.val - 1 - D) (y.getD i []) → a ∈ Spec.inputs p id q c y msg := by
    intro a ha
    rw [Spec.inputs]
    refine List.mem_append_left _ (List.mem_append_right _ (List.mem_flatMap.mpr ⟨i, List.mem_range.mpr hi, ?_⟩))
    rw [hD]
    exact ha
  have hsub' : ∀ a, a ∈ Spec.chainInputs p.H id q i D' (2 ^ p.W.val - 1 - D') (y'.getD i []) → a ∈ Spec.inputs p id q c' y' msg' := by
    intro a ha
    rw [Spec.inputs]
    refine List.mem_append_left _ (List.mem_append_right _ (List.mem_flatMap.mpr ⟨i, List.mem_range.mpr hi, ?_⟩))
    rw [hD']
    exact ha
  rcases chain_collision p.H id q i _ D _ _ hc1 with heq | ⟨a, ha, b, hb, hab, hh⟩
  · right
    obtain ⟨n, hn⟩ : ∃ n, D - D' = n + 1 := ⟨D - D' - 1, by omega⟩
    refine ⟨i, chain p.H id q i D' n (y'.getD i []), hi, by omega, hsub' _ ?_, ?_⟩
    · rw [hD, hin', hn, chainInputs_add, show D' + n = D - 1 by omega]
      exact List.mem_append_left _ (List.mem_append_right _ (List.mem_cons_self ..))
    · rw [hD, heq, hn, chain_add, show D' + n = D - 1 by omega, chain, chain, hx_one]
  · left
    exact ⟨a, hsub a ha, b, hsub' b (by rw [hin']; exact List.mem_append_right _ hb), hab, hh⟩

end Verif.Pub.Lms
