import Verif.Pub.LmsTree
/-
C104: LMS signatures (pubkey/lms/lms.go) verify; encodings.  C105: over every history of calls no index is used twice.
C106: what an accepted signature means under the public key of a key made by `GenerateKeyFromSeed`.
-/
namespace Verif.Pub.Lms
open Verif.Cipher Verif.Kdf

/-- pubkey/lms/lms_params.go:82-150: the parameters (the hash function in them is not used). -/
def lmsTable : List LmsParam := [
  { typ := 5, M := 32, h := 5 }, { typ := 6, M := 32, h := 10 }, { typ := 7, M := 32, h := 15 }, { typ := 8, M := 32, h := 20 }, { typ := 9, M := 32, h := 25 },
  { typ := 25, M := 32, h := 5 }, { typ := 26, M := 32, h := 10 }, { typ := 27, M := 32, h := 15 }, { typ := 28, M := 32, h := 20 }, { typ := 29, M := 32, h := 25 }]

/-- Parameters of a tree that go with those of the one-time signatures. -/
structure Spec.IsLms (p : LmsParam) (o : OtsParam) : Prop where
  ots : Spec.IsOts o
  typ : p.typ < 2 ^ 32
  height : p.h ≤ 30
  size : p.M = o.N

/-- All built-in parameters go together. -/
theorem C104_params (sha sm3 : HashFn) (h1 : sha.size = 32) (h2 : sm3.size = 32) (p : LmsParam) (hp : p ∈ lmsTable) (o : OtsParam) (ho : o ∈ otsTable sha sm3) : Spec.IsLms p o := by
  refine ⟨C102_params sha sm3 h1 h2 o ho, ?_, ?_, ?_⟩
  · revert p; decide
  · revert p; decide
  · have hM : p.M = 32 := by revert p; decide
    have hN : o.N = 32 := by
      simp only [otsTable, List.mem_cons, List.not_mem_nil, or_false] at ho
      rcases ho with rfl | rfl | rfl | rfl | rfl | rfl | rfl | rfl <;> rfl
    rw [hM, hN]

/-- C104. The public key is the root of the Merkle tree of RFC 8554 over the one-time public keys. -/
theorem C104_root (p : LmsParam) (o : OtsParam) (id seed : Bytes) : (genKey p o id seed).pub.k = Spec.node p.h o id seed p.h 1 :=
  genTree_node p o id seed (le_refl _) (by simp) (by simp)

/-- The state of a key after some signatures. -/
def keyAt (p : LmsParam) (o : OtsParam) (id seed : Bytes) (q : Nat) : LmsKey := { genKey p o id seed with q := q }

theorem lmsSign_done (p : LmsParam) (o : OtsParam) (id seed : Bytes) (q : Nat) (hq : 2 ^ p.h ≤ q) (rd : Option Bytes) (msg : Bytes) (optC : Option Bytes) :
    lmsSign (keyAt p o id seed q) rd msg optC = (keyAt p o id seed q, .err) := if_pos hq

theorem path_node (p : LmsParam) (o : OtsParam) (id seed : Bytes) (q : Nat) (hq : q < 2 ^ p.h) :
    ((List.range p.h).map fun i => (genKey p o id seed).tree (((2 ^ p.h + q) >>> i) ^^^ 1)) =
      (List.range p.h).map fun i => Spec.node p.h o id seed (0 + i) (((2 ^ p.h + q) >>> i) ^^^ 1) := by
  apply List.map_congr_left
  intro i hi
  rw [List.mem_range] at hi
  rw [Nat.zero_add]
  have e := pow_mul_pow (Nat.le_of_lt hi)
  have hpos := Nat.two_pow_pos i
  have h1 : 2 ^ (p.h - i) ≤ (2 ^ p.h + q) >>> i := by
    rw [Nat.shiftRight_eq_div_pow, Nat.le_div_iff_mul_le hpos, e]; omega
  have h2 : (2 ^ p.h + q) >>> i < 2 * 2 ^ (p.h - i) := by
    rw [Nat.shiftRight_eq_div_pow, Nat.div_lt_iff_lt_mul hpos, mul_assoc, e]; omega
  have htwo := two_mul_pow hi
  apply genTree_node p o id seed (by omega)
  · rw [xor_one]; split <;> omega
  · rw [xor_one]; split <;> omega

theorem lmsSign_ok {p : LmsParam} {o : OtsParam} (hp : Spec.IsLms p o) (id seed : Bytes) (q : Nat) (hq : q < 2 ^ p.h) (rd : Option Bytes) (msg : Bytes) (optC : Option Bytes) :
    (nonce o.N optC rd = none ∧ lmsSign (keyAt p o id seed q) rd msg optC = (keyAt p o id seed q, .err)) ∨
    ∃ key sig, otsSign (newOtsKey o q id seed) rd msg optC = (key, .ok sig) ∧
      lmsSign (keyAt p o id seed q) rd msg optC = (keyAt p o id seed (q + 1),
        .ok { p, q, ots := sig, path := (List.range p.h).map fun i => Spec.node p.h o id seed (0 + i) (((2 ^ p.h + q) >>> i) ^^^ 1) }) := by
  have hh := hp.height
  have hlt : 2 ^ p.h ≤ 2 ^ 30 := Nat.pow_le_pow_right (by decide) hh
  have hu : lmsSign (keyAt p o id seed q) rd msg optC = match (otsSign (newOtsKey o q id seed) rd msg optC).2 with
      | .ok sig => (keyAt p o id seed (q + 1), .ok { p, q, ots := sig, path := (List.range p.h).map fun i => (genKey p o id seed).tree (((2 ^ p.h + q) >>> i) ^^^ 1) })
      | .err => (keyAt p o id seed q, .err)
      | .panic => (keyAt p o id seed q, .panic)
      | .hang => (keyAt p o id seed q, .hang) := by
    have h1 : (q + 1) % 2 ^ 32 = q + 1 := Nat.mod_eq_of_lt (by omega)
    conv_rhs => rw [← h1]
    exact if_neg (Nat.not_le.mpr hq)
  rw [hu]
  rcases otsSign_fresh hp.ots q id seed msg rd optC with ⟨hn, hs⟩ | ⟨c, e, hn, -, hs⟩
  · left
    refine ⟨hn, ?_⟩
    rw [hs]
  · right
    refine ⟨_, _, hs, ?_⟩
    rw [hs]
    simp only
    rw [path_node p o id seed q hq]

theorem lmsVerify_sign {p : LmsParam} {o : OtsParam} (hp : Spec.IsLms p o) (id seed : Bytes) (q : Nat) (hq : q < 2 ^ p.h) (msg : Bytes) (sig : OtsSig)
    (hv : recover sig msg o id q = .ok (newOtsKey o q id seed).pub) :
    lmsVerify (genKey p o id seed).pub msg { p, q, ots := sig, path := (List.range p.h).map fun i => Spec.node p.h o id seed (0 + i) (((2 ^ p.h + q) >>> i) ^^^ 1) } = .ok true := by
  have hlt : 2 ^ p.h ≤ 2 ^ 30 := Nat.pow_le_pow_right (by decide) hp.height
  rw [lmsVerify, if_neg (by simp [genKey]), show (genKey p o id seed).pub.o = o from rfl, show (genKey p o id seed).pub.id = id from rfl, hv]
  simp only
  rw [show (genKey p o id seed).pub.p = p from rfl, if_neg (by simp), Nat.mod_eq_of_lt (by omega), List.take_of_length_le (by simp), C104_root]
  have := climb_node p.h o id seed p.h 0 (2 ^ p.h + q) (by omega)
  rw [Spec.node, Nat.add_sub_cancel_left] at this
  rw [Nat.add_comm q, this, Nat.add_div_left _ (Nat.two_pow_pos p.h), Nat.div_eq_of_lt hq]
  simp

/-- C104. Signing, for all parameters, identifiers, seeds, counters, messages and random sources: with the counter at the
number of leaves or above an error; else, with a nonce of the right length or none given, the error of the random source, or
a signature that carries the counter and verifies under the public key; the counter advances by one exactly when a signature
is returned. -/
theorem C104_sign {p : LmsParam} {o : OtsParam} (hp : Spec.IsLms p o) (id seed : Bytes) (q : Nat) (rd : Option Bytes) (msg : Bytes) (optC : Option Bytes)
    (hC : ∀ c, optC = some c → c.length = o.N) :
    (lmsSign (keyAt p o id seed q) rd msg optC = (keyAt p o id seed q, .err) ∧ (2 ^ p.h ≤ q ∨ (optC = none ∧ rd = none))) ∨
    ∃ sig, lmsSign (keyAt p o id seed q) rd msg optC = (keyAt p o id seed (q + 1), .ok sig) ∧ q < 2 ^ p.h ∧ sig.q = q ∧
      lmsVerify (genKey p o id seed).pub msg sig = .ok true := by
  rcases Nat.lt_or_ge q (2 ^ p.h) with hq | hq
  swap
  · exact .inl ⟨lmsSign_done p o id seed q hq rd msg optC, .inl hq⟩
  rcases lmsSign_ok hp id seed q hq rd msg optC with ⟨hn, hs⟩ | ⟨key, sig, ho, hs⟩
  · left
    refine ⟨hs, .inr ?_⟩
    cases optC with
    | some c => cases hn
    | none => cases rd with
      | none => exact ⟨rfl, rfl⟩
      | some b => cases hn
  · right
    refine ⟨_, hs, hq, rfl, lmsVerify_sign hp id seed q hq msg sig ?_⟩
    rcases otsSign_fresh hp.ots q id seed msg rd optC with ⟨-, h⟩ | ⟨c, e, hn, he, h⟩
    · rw [ho] at h; cases h
    · rw [ho] at h
      cases h
      exact recover_sign hp.ots q id seed msg c (nonce_length hC hn) e he

/-- Following an authentication path: values `v 0` (the leaf) to `v h` (the root), each the hash of the one before and the
sibling from the path, on the side that the bit of the leaf number says. -/
def Spec.Leads (H : HashFn) (id : Bytes) (path : List Bytes) (n : Nat) (leaf root : Bytes) : Prop :=
  ∃ v : Nat → Bytes, v 0 = leaf ∧ v path.length = root ∧ ∀ i (hi : i < path.length),
    v (i + 1) = H.f (id ++ hx 4 (n / 2 ^ (i + 1)) ++ dIntr ++ if n / 2 ^ i % 2 = 1 then path[i] ++ v i else v i ++ path[i])

theorem climb_leads (H : HashFn) (id : Bytes) (root : Bytes) : ∀ (path : List Bytes) (n : Nat) (leaf : Bytes),
    climb H id path n leaf = root ↔ Spec.Leads H id path n leaf root
  | [], n, leaf => by
    constructor
    · rintro h; exact ⟨fun _ => leaf, rfl, h, fun i hi => absurd hi (by simp)⟩
    · rintro ⟨v, h0, h1, -⟩; rw [← h1]; exact h0.symm
  | s :: path, n, leaf => by
    have e (i : Nat) : n / 2 / 2 ^ i = n / 2 ^ (i + 1) := by rw [Nat.div_div_eq_div_mul, pow_succ, mul_comm]
    rw [climb, climb_leads H id root path]
    constructor
    · rintro ⟨v, h0, h1, h2⟩
      refine ⟨fun i => if i = 0 then leaf else v (i - 1), rfl, by simpa using h1, ?_⟩
      intro i hi
      rcases Nat.eq_zero_or_pos i with rfl | hpos
      · simp [h0]
      · obtain ⟨k, rfl⟩ : ∃ k, i = k + 1 := ⟨i - 1, by omega⟩
        have := h2 k (by simpa using hi)
        simp only [e] at this
        simpa using this
    · rintro ⟨v, h0, h1, h2⟩
      refine ⟨fun i => v (i + 1), ?_, h1, ?_⟩
      · have := h2 0 (by simp)
        rw [h0] at this
        simpa using this
      · intro i hi
        have := h2 (i + 1) (by simpa using hi)
        simp only [e]
        simpa using this

/-- C104. Verification of a signature whose path is as long as the tree is high: a verdict, which is that of RFC 8554,
algorithm 6: types agree, the one-time signature has the right shape, and the path leads from the leaf with the recovered key
to the public key. -/
theorem C104_verify (pub : LmsPub) (hh : pub.p.h ≤ 30) (msg : Bytes) (sig : LmsSig) (ho : Spec.IsOts sig.ots.p) (hl : sig.path.length = pub.p.h) (hq : sig.q < 2 ^ pub.p.h) :
    ∃ b, lmsVerify pub msg sig = .ok b ∧ (b = true ↔ sig.p.typ = pub.p.typ ∧ sig.ots.p.typ = pub.o.typ ∧ Spec.OtsShape sig.ots ∧
      Spec.Leads pub.o.H pub.id sig.path (2 ^ pub.p.h + sig.q)
        (pub.o.H.f (pub.id ++ hx 4 (2 ^ pub.p.h + sig.q) ++ dLeaf ++ Spec.candidate sig.ots.p pub.id sig.q sig.ots.c sig.ots.y msg)) pub.k) := by
  have hlt : 2 ^ pub.p.h ≤ 2 ^ 30 := Nat.pow_le_pow_right (by decide) hh
  obtain ⟨p, q, ⟨o, c, y⟩, path⟩ := sig
  simp only at ho hl hq
  rw [lmsVerify]
  by_cases h1 : pub.p.typ = p.typ
  swap
  · rw [if_pos h1]
    exact ⟨_, rfl, by simp only [Bool.false_eq_true, false_iff]; tauto⟩
  rw [if_neg (by tauto), recover_eq ho]
  by_cases h : o.typ = pub.o.typ ∧ c.length = o.N ∧ y.length = o.P ∧ ∀ z ∈ y, z.length = o.N
  swap
  · rw [if_neg h]
    refine ⟨_, rfl, ?_⟩
    simp only [Bool.false_eq_true, false_iff]
    rintro ⟨-, ht, hs, -⟩
    exact h ⟨ht, hs.c, hs.y, hs.each⟩
  rw [if_pos h]
  simp only
  rw [if_neg (by omega), Nat.mod_eq_of_lt (by omega), List.take_of_length_le (by omega), Nat.add_comm q]
  refine ⟨_, rfl, ?_⟩
  rw [beq_iff_eq, climb_leads]
  exact ⟨fun hL => ⟨h1.symm, h.1, ⟨h.2.1, h.2.2.1, h.2.2.2⟩, hL⟩, fun hL => hL.2.2.2⟩

/-! ### Encodings -/

/-- A signature whose parts have the right lengths. -/
structure Spec.LmsShape (sig : LmsSig) : Prop where
  ots : Spec.OtsShape sig.ots
  q : sig.q < 2 ^ sig.p.h
  path : sig.path.length = sig.p.h
  each : ∀ z ∈ sig.path, z.length = sig.p.M

theorem lmsSigBytes_eq (sig : LmsSig) (hs : Spec.LmsShape sig) :
    lmsSigBytes sig = hx 4 sig.q ++ (otsSigBytes sig.ots ++ (hx 4 sig.p.typ ++ sig.path.flatten)) := by
  rw [lmsSigBytes, ← hs.path, flatMap_getD]
  simp only [List.append_assoc]

theorem lmsSigBytes_length (sig : LmsSig) (ho : Spec.IsOts sig.ots.p) (hs : Spec.LmsShape sig) : (lmsSigBytes sig).length = sig.p.sigLength sig.ots.p := by
  rw [lmsSigBytes_eq sig hs, LmsParam.sigLength]
  simp only [List.length_append, hx_length, otsSigBytes_length _ ho hs.ots, flatten_length hs.each, hs.path]
  omega

theorem parseLmsSig_bytes (reg : Reg) (sig : LmsSig) (ho : Spec.IsOts sig.ots.p) (hro : reg.ots sig.ots.p.typ = some sig.ots.p) (hrl : reg.lms sig.p.typ = some sig.p)
    (ht : sig.p.typ < 2 ^ 32) (hh : sig.p.h ≤ 30) (hs : Spec.LmsShape sig) : parseLmsSig reg (lmsSigBytes sig) = .ok sig := by
  have hlt : 2 ^ sig.p.h ≤ 2 ^ 30 := Nat.pow_le_pow_right (by decide) hh
  have hq := hs.q
  have hlen := lmsSigBytes_length sig ho hs
  have hol := otsSigBytes_length _ ho hs.ots
  have hsl := ho.len
  have he := lmsSigBytes_eq sig hs
  have hL : sig.p.sigLength sig.ots.p = 8 + sig.ots.p.sigLength + sig.p.h * sig.p.M := by rw [LmsParam.sigLength]
  have e0 : (lmsSigBytes sig).take 4 = hx 4 sig.q := by rw [he, List.take_left' (hx_length 4 _)]
  have e1 : (lmsSigBytes sig).drop 4 = otsSigBytes sig.ots ++ (hx 4 sig.p.typ ++ sig.path.flatten) := by rw [he, List.drop_left' (hx_length 4 _)]
  have e2 : ((lmsSigBytes sig).drop 4).take 4 = hx 4 sig.ots.p.typ := by
    rw [e1, otsSigBytes, List.append_assoc, List.append_assoc, List.take_left' (hx_length 4 _)]
  have e3 : (lmsSigBytes sig).drop (4 + sig.ots.p.sigLength) = hx 4 sig.p.typ ++ sig.path.flatten := by
    rw [← List.drop_drop, e1, List.drop_left' hol]
  have e4 : (lmsSigBytes sig).drop (4 + sig.ots.p.sigLength + 4) = sig.path.flatten := by
    rw [← List.drop_drop, e3, List.drop_left' (hx_length 4 _)]
  have e5 : ((lmsSigBytes sig).drop 4).take sig.ots.p.sigLength = otsSigBytes sig.ots := by rw [e1, List.take_left' hol]
  rw [parseLmsSig, if_neg (by omega), e2, setBytes_hx _ _ ho.typ, hro]
  simp only
  rw [if_neg (by omega), if_neg (by omega), e3, List.take_left' (hx_length 4 _), setBytes_hx _ _ ht, hrl]
  simp only
  rw [if_neg (by omega), e5, parseOtsSig_bytes reg _ ho hro hs.ots]
  simp only
  rw [e0, setBytes_hx _ _ (by omega), if_neg (by omega), e4]
  have := slices_flatten sig.p.M sig.path [] hs.each
  rw [List.append_nil, hs.path] at this
  rw [this]

/-- Registries whose parameters have the type codes they are registered under and are as RFC 8554 requires. -/
def Spec.IsLmsReg (reg : Reg) : Prop := Spec.IsReg reg ∧ ∀ t p, reg.lms t = some p → p.typ = t ∧ p.typ < 2 ^ 32 ∧ p.h ≤ 30

theorem setBytes_take4 (b : Bytes) (h : 4 ≤ b.length) : hx 4 (setBytes (b.take 4)) = b.take 4 ∧ setBytes (b.take 4) < 2 ^ 32 := by
  have := hx_setBytes (b.take 4)
  have h2 := setBytes_lt (b.take 4)
  rw [List.length_take, Nat.min_eq_left h] at this h2
  exact ⟨this, h2⟩

/-- C104. `NewSignatureFromBytes`, on every input: an error, or a panic on inputs between one and seven bytes longer than the
one-time signature they start with, or exactly the encodings of well-formed signatures, which `ToBytes` gives back.  Missing
from the full claim: no panic (`C104_panic_violated`). -/
theorem C104_bytes_partial (reg : Reg) (hreg : Spec.IsLmsReg reg) (b : Bytes) :
    (parseLmsSig reg b = .err ∧ ¬ ∃ sig, Spec.LmsShape sig ∧ reg.ots sig.ots.p.typ = some sig.ots.p ∧ reg.lms sig.p.typ = some sig.p ∧ lmsSigBytes sig = b) ∨
    (parseLmsSig reg b = .panic ∧ ∃ o, reg.ots (setBytes ((b.drop 4).take 4)) = some o ∧ o.sigLength < b.length ∧ b.length < o.sigLength + 8) ∨
    ∃ sig, parseLmsSig reg b = .ok sig ∧ Spec.LmsShape sig ∧ reg.ots sig.ots.p.typ = some sig.ots.p ∧ reg.lms sig.p.typ = some sig.p ∧ lmsSigBytes sig = b := by
  have hno : parseLmsSig reg b = .err → ¬ ∃ sig, Spec.LmsShape sig ∧ reg.ots sig.ots.p.typ = some sig.ots.p ∧ reg.lms sig.p.typ = some sig.p ∧ lmsSigBytes sig = b := by
    rintro h ⟨sig, hs, hro, hrl, rfl⟩
    have h1 := (hreg.1 _ _ hro).2
    obtain ⟨-, ht, hh⟩ := hreg.2 _ _ hrl
    rw [parseLmsSig_bytes reg sig h1 hro hrl ht hh hs] at h
    cases h
  suffices parseLmsSig reg b = .err ∨ (parseLmsSig reg b = .panic ∧ ∃ o, reg.ots (setBytes ((b.drop 4).take 4)) = some o ∧ o.sigLength < b.length ∧ b.length < o.sigLength + 8) ∨
      ∃ sig, parseLmsSig reg b = .ok sig ∧ Spec.LmsShape sig ∧ reg.ots sig.ots.p.typ = some sig.ots.p ∧ reg.lms sig.p.typ = some sig.p ∧ lmsSigBytes sig = b by
    rcases this with h | h | h
    · exact .inl ⟨h, hno h⟩
    · exact .inr (.inl h)
    · exact .inr (.inr h)
  rw [parseLmsSig]
  by_cases h8 : b.length < 8
  · rw [if_pos h8]; exact .inl rfl
  rw [if_neg h8]
  simp only
  cases ho : reg.ots (setBytes ((b.drop 4).take 4)) with
  | none => exact .inl rfl
  | some o =>
    simp only
    by_cases h1 : 4 + b.length ≤ 4 + o.sigLength
    · rw [if_pos h1]; exact .inl rfl
    rw [if_neg h1]
    by_cases h2 : b.length < 4 + o.sigLength + 4
    · rw [if_pos h2]; exact .inr (.inl ⟨rfl, o, rfl, by omega, by omega⟩)
    rw [if_neg h2]
    cases hl : reg.lms (setBytes ((b.drop (4 + o.sigLength)).take 4)) with
    | none => exact .inl rfl
    | some p =>
      simp only
      by_cases h3 : p.sigLength o = b.length
      swap
      · rw [if_pos h3]; exact .inl rfl
      rw [if_neg (by simpa using h3)]
      obtain ⟨hot, hoo⟩ := hreg.1 _ _ ho
      obtain ⟨hlt, hl32, hl30⟩ := hreg.2 _ _ hl
      rcases C102_bytes reg hreg.1 ((b.drop 4).take o.sigLength) with ⟨he, -⟩ | ⟨ots, he, hs, hr, hb⟩
      · rw [he]; exact .inl rfl
      rw [he]
      simp only
      by_cases h4 : setBytes (b.take 4) ≥ 2 ^ p.h
      · rw [if_pos h4]; exact .inl rfl
      rw [if_neg h4]
      rw [LmsParam.sigLength] at h3
      have hslices := slices_spec p.M p.h (b.drop (4 + o.sigLength + 4)) (by rw [List.length_drop]; omega)
      -- the one-time signature has the parameters the type code at its start says
      have hsl := hoo.len
      have hop : ots.p = o := by
        have h4 : ((b.drop 4).take o.sigLength).take 4 = (b.drop 4).take 4 := by rw [List.take_take, Nat.min_eq_left (by omega)]
        have h5 : ((b.drop 4).take o.sigLength).take 4 = hx 4 ots.p.typ := by
          rw [← hb, otsSigBytes_eq _ hs, List.append_assoc, List.take_left' (hx_length 4 _)]
        rw [h5] at h4
        rw [← h4, setBytes_hx _ _ (hreg.1 _ _ hr).2.typ] at ho
        rw [ho] at hr
        exact (Option.some.inj hr).symm
      have hsh : Spec.LmsShape { p, q := setBytes (b.take 4), ots, path := slices p.M p.h (b.drop (4 + o.sigLength + 4)) } :=
        ⟨hs, by simpa using h4, hslices.1, hslices.2.1⟩
      refine .inr (.inr ⟨_, rfl, hsh, hr, by rw [hlt]; exact hl, ?_⟩)
      rw [lmsSigBytes_eq _ hsh]
      simp only
      rw [(setBytes_take4 b (by omega)).1, hb, hslices.2.2, hlt, (setBytes_take4 (b.drop (4 + o.sigLength)) (by rw [List.length_drop]; omega)).1]
      rw [List.take_of_length_le (l := b.drop (4 + o.sigLength + 4)) (by rw [List.length_drop]; omega)]
      rw [show b.drop (4 + o.sigLength + 4) = (b.drop (4 + o.sigLength)).drop 4 by rw [List.drop_drop], List.take_append_drop, ← List.drop_drop, List.take_append_drop, List.take_append_drop]

/-- A registry for tests. -/
def toyLms : LmsParam := { typ := 5, M := 1, h := 2 }
def toyReg : Reg := { ots := fun t => if t = 3 then some toyOts else none, lms := fun t => if t = 5 then some toyLms else none }
theorem toyReg_isLmsReg : Spec.IsLmsReg toyReg := by
  constructor
  · intro t p h
    simp only [toyReg, Option.ite_none_right_eq_some, Option.some.injEq] at h
    obtain ⟨rfl, rfl⟩ := h
    exact ⟨rfl, toyOts_isOts⟩
  · intro t p h
    simp only [toyReg, Option.ite_none_right_eq_some, Option.some.injEq] at h
    obtain ⟨rfl, rfl⟩ := h
    exact ⟨rfl, by decide, by decide⟩
theorem toyLms_isLms : Spec.IsLms toyLms toyOts := ⟨toyOts_isOts, by decide, by decide, by decide⟩

/-- C104, full claim false: verification of untrusted bytes panics when they end soon after the one-time signature: for every
public key, message and registry, any bytes that start with an index and a registered type code and are one to seven longer
than the one-time signature. -/
theorem C104_panic_violated (reg : Reg) (pub : LmsPub) (msg b : Bytes) (o : OtsParam) (ho : reg.ots (setBytes ((b.drop 4).take 4)) = some o)
    (h8 : 8 ≤ b.length) (h1 : o.sigLength < b.length) (h2 : b.length < o.sigLength + 8) : lmsVerifyBytes reg pub msg b = .panic := by
  rw [lmsVerifyBytes, parseLmsSig, if_neg (by omega)]
  simp only [ho]
  rw [if_neg (by omega), if_pos (by omega)]

example : lmsVerifyBytes toyReg (genKey toyLms toyOts toyId [1]).pub [7] ([0, 0, 0, 0, 0, 0, 0, 3] ++ List.replicate 9 0) = .panic := by decide +kernel

/-- C104. A signature made by a key goes through its encoding: `Verify` on the bytes that `Sign` returns. -/
theorem C104_sign_bytes {p : LmsParam} {o : OtsParam} (hp : Spec.IsLms p o) (reg : Reg) (hro : reg.ots o.typ = some o) (hrl : reg.lms p.typ = some p) (id seed : Bytes)
    (q : Nat) (rd : Option Bytes) (msg : Bytes) (optC : Option Bytes) (hC : ∀ c, optC = some c → c.length = o.N) (key : LmsKey) (sig : LmsSig)
    (h : lmsSign (keyAt p o id seed q) rd msg optC = (key, .ok sig)) :
    (lmsSigBytes sig).length = p.sigLength o ∧ parseLmsSig reg (lmsSigBytes sig) = .ok sig ∧ lmsVerifyBytes reg (genKey p o id seed).pub msg (lmsSigBytes sig) = .ok true := by
  rcases C104_sign hp id seed q rd msg optC hC with ⟨h', -⟩ | ⟨sig', h', hq, -, hv⟩
  · rw [h] at h'; cases h'
  rw [h] at h'
  cases h'
  rcases lmsSign_ok hp id seed q hq rd msg optC with ⟨-, h'⟩ | ⟨k, s, ho, h'⟩
  · rw [h] at h'; cases h'
  rw [h] at h'
  cases h'
  have hos : Spec.OtsShape s ∧ s.p = o := by
    obtain ⟨b, hb, hiff⟩ := C102_verify (newOtsKey o q id seed).pub msg s (by
      rcases otsSign_fresh hp.ots q id seed msg rd optC with ⟨-, h⟩ | ⟨c, e, hn, he, h⟩
      · rw [ho] at h; cases h
      · rw [ho] at h; cases h; exact hp.ots)
    rcases otsSign_fresh hp.ots q id seed msg rd optC with ⟨-, h⟩ | ⟨c, e, hn, he, h⟩
    · rw [ho] at h; cases h
    · rw [ho] at h
      cases h
      have := recover_sign hp.ots q id seed msg c (nonce_length hC hn) e he
      rw [recover_eq hp.ots] at this
      split at this
      · rename_i hh; exact ⟨⟨hh.2.1, hh.2.2.1, hh.2.2.2⟩, rfl⟩
      · cases this
  obtain ⟨hos, hsp⟩ := hos
  have hsh : Spec.LmsShape { p, q, ots := s, path := (List.range p.h).map fun i => Spec.node p.h o id seed (0 + i) (((2 ^ p.h + q) >>> i) ^^^ 1) } := by
    refine ⟨hos, hq, by simp, ?_⟩
    intro z hz
    obtain ⟨i, -, rfl⟩ := List.mem_map.mp hz
    rw [node_length, hp.size, hp.ots.size]
  have hparse := parseLmsSig_bytes reg _ (by simp only [hsp]; exact hp.ots) (by simp only [hsp]; exact hro) hrl hp.typ hp.height hsh
  refine ⟨?_, hparse, ?_⟩
  · rw [lmsSigBytes_length _ (by simp only [hsp]; exact hp.ots) hsh]
    simp only [hsp]
  · rw [lmsVerifyBytes, hparse]
    exact hv

example : lmsVerifyBytes toyReg (genKey toyLms toyOts toyId [1]).pub [7] (match (lmsSign (keyAt toyLms toyOts toyId [1] 2) (some [9]) [7] none).2 with | .ok s => lmsSigBytes s | _ => []) = .ok true := by
  decide +kernel
example : lmsVerifyBytes toyReg (genKey toyLms toyOts toyId [1]).pub [8] (match (lmsSign (keyAt toyLms toyOts toyId [1] 2) (some [9]) [7] none).2 with | .ok s => lmsSigBytes s | _ => []) = .ok false := by
  decide +kernel

/-- C104. Public keys: decoding accepts exactly the encodings. -/
theorem C104_pub_bytes (reg : Reg) (hreg : Spec.IsLmsReg reg) (b : Bytes) (pub : LmsPub) :
    parseLmsPub reg b = .ok pub ↔ reg.lms pub.p.typ = some pub.p ∧ reg.ots pub.o.typ = some pub.o ∧ pub.id.length = 16 ∧ pub.k.length = pub.p.M ∧ lmsPubBytes pub = b := by
  constructor
  · intro h
    rw [parseLmsPub] at h
    by_cases h8 : b.length < 8
    · rw [if_pos h8] at h; cases h
    rw [if_neg h8] at h
    cases hl : reg.lms (setBytes (b.take 4)) with
    | none => rw [hl] at h; cases h
    | some p =>
      rw [hl] at h
      cases ho : reg.ots (setBytes ((b.drop 4).take 4)) with
      | none => rw [ho] at h; cases h
      | some o =>
        rw [ho] at h
        simp only at h
        by_cases hb : b.length = p.M + 24
        swap
        · rw [if_pos hb] at h; cases h
        rw [if_neg (by simpa using hb)] at h
        cases h
        have hlt := (hreg.2 _ _ hl).1
        have hot := (hreg.1 _ _ ho).1
        simp only
        refine ⟨by rw [hlt]; exact hl, by rw [hot]; exact ho, by simp; omega, by simp; omega, ?_⟩
        rw [lmsPubBytes]
        simp only
        rw [hlt, hot, (setBytes_take4 b (by omega)).1, (setBytes_take4 (b.drop 4) (by rw [List.length_drop]; omega)).1, List.append_assoc, List.append_assoc,
          show b.drop 24 = (b.drop 8).drop 16 by rw [List.drop_drop], List.take_append_drop, show b.drop 8 = (b.drop 4).drop 4 by rw [List.drop_drop],
          List.take_append_drop, List.take_append_drop]
  · rintro ⟨hl, ho, hid, hk, rfl⟩
    obtain ⟨-, hl32, -⟩ := hreg.2 _ _ hl
    have hot := (hreg.1 _ _ ho).2.typ
    have hlen : (lmsPubBytes pub).length = pub.p.M + 24 := by simp [lmsPubBytes, hid, hk]; omega
    rw [parseLmsPub, if_neg (by omega), hlen]
    simp only [lmsPubBytes, List.append_assoc]
    rw [List.take_left' (hx_length 4 _), setBytes_hx _ _ hl32, hl]
    simp only
    rw [List.drop_left' (hx_length 4 _), List.take_left' (hx_length 4 _), setBytes_hx _ _ hot, ho]
    simp only
    rw [if_neg (by simp), show (8 : Nat) = 4 + 4 from rfl, ← List.drop_drop, List.drop_left' (hx_length 4 _), List.drop_left' (hx_length 4 _), List.take_left' hid,
      show (24 : Nat) = 4 + (4 + 16) from rfl, ← List.drop_drop, List.drop_left' (hx_length 4 _), ← List.drop_drop, List.drop_left' (hx_length 4 _), List.drop_left' hid]

/-- C104. `NewPrivateKeyFromBytes` undoes `ToBytes`, tree and counter included, for a key whose seed has `M` bytes.  A longer
seed is cut: another key.  A shorter one gives an error. -/
theorem C104_key_bytes {p : LmsParam} {o : OtsParam} (hp : Spec.IsLms p o) (reg : Reg) (hro : reg.ots o.typ = some o) (hrl : reg.lms p.typ = some p) (id seed : Bytes) (hid : id.length = 16)
    (q : Nat) (hq : q < 2 ^ 32) :
    parseLmsKey reg (lmsKeyBytes (keyAt p o id seed q)) = if seed.length < p.M then .err else .ok (keyAt p o id (seed.take p.M) q) := by
  have hb : lmsKeyBytes (keyAt p o id seed q) = hx 4 p.typ ++ (hx 4 o.typ ++ (hx 4 q ++ (id ++ seed))) := by
    simp only [lmsKeyBytes, keyAt, genKey, List.append_assoc]
  have hlen : (lmsKeyBytes (keyAt p o id seed q)).length = seed.length + 28 := by rw [hb]; simp [hid]; omega
  rw [parseLmsKey, if_neg (by omega), hlen, hb, List.take_left' (hx_length 4 _), setBytes_hx _ _ hp.typ, hrl]
  simp only
  rw [List.drop_left' (hx_length 4 _), List.take_left' (hx_length 4 _), setBytes_hx _ _ hp.ots.typ, hro]
  simp only [Nat.add_lt_add_iff_right]
  rw [show (8 : Nat) = 4 + 4 from rfl, ← List.drop_drop, List.drop_left' (hx_length 4 _), List.drop_left' (hx_length 4 _), List.take_left' (hx_length 4 _), setBytes_hx _ _ hq,
    show (12 : Nat) = 4 + (4 + 4) from rfl, ← List.drop_drop, List.drop_left' (hx_length 4 _), ← List.drop_drop, List.drop_left' (hx_length 4 _), List.drop_left' (hx_length 4 _), List.take_left' hid,
    show (28 : Nat) = 4 + (4 + (4 + 16)) from rfl, ← List.drop_drop, List.drop_left' (hx_length 4 _), ← List.drop_drop, List.drop_left' (hx_length 4 _), ← List.drop_drop, List.drop_left' (hx_length 4 _), List.drop_left' hid]
  rfl

example : parseLmsKey toyReg (lmsKeyBytes (keyAt toyLms toyOts toyId [1] 3)) matches .ok _ := by decide +kernel
/-- A key with a longer seed is restored as a key with another public key. -/
theorem C104_seed_violated : ∃ k, parseLmsKey toyReg (lmsKeyBytes (genKey toyLms toyOts toyId [1, 2])) = .ok k ∧ k.pub.k ≠ (genKey toyLms toyOts toyId [1, 2]).pub.k := by
  refine ⟨_, (C104_key_bytes toyLms_isLms toyReg rfl rfl toyId [1, 2] rfl 0 (by decide)).trans (if_neg (by decide)), ?_⟩
  decide +kernel

/-! ### C105: histories -/

/-- A call on a private key: signing, or saving it and loading it again. -/
inductive Ev where
  | sign (rd : Option Bytes) (msg : Bytes) (optC : Option Bytes)
  | reload

/-- The signatures a history of calls produces, with their messages. -/
def lmsRun (reg : Reg) : List Ev → LmsKey → List (Bytes × LmsSig)
  | [], _ => []
  | .sign rd msg optC :: evs, key =>
    match lmsSign key rd msg optC with
    | (key, .ok sig) => (msg, sig) :: lmsRun reg evs key
    | (key, _) => lmsRun reg evs key
  | .reload :: evs, key =>
    match parseLmsKey reg (lmsKeyBytes key) with
    | .ok key => lmsRun reg evs key
    | _ => []

/-- The nonces callers pass have the right length. -/
def Spec.NoncesOk (o : OtsParam) (evs : List Ev) : Prop := ∀ rd msg c, Ev.sign rd msg (some c) ∈ evs → c.length = o.N

/-- The calls to sign, those whose random source fails left out. -/
def Spec.signs (evs : List Ev) : List Bytes := evs.filterMap fun e =>
  match e with
  | .sign none _ none => none
  | .sign _ msg _ => some msg
  | .reload => none

theorem lmsRun_at {p : LmsParam} {o : OtsParam} (hp : Spec.IsLms p o) (reg : Reg) (hro : reg.ots o.typ = some o) (hrl : reg.lms p.typ = some p) (id seed : Bytes) (hid : id.length = 16)
    (hseed : seed.length = p.M) : ∀ (evs : List Ev) (q : Nat), Spec.NoncesOk o evs → q ≤ 2 ^ p.h →
    let out := lmsRun reg evs (keyAt p o id seed q)
    out.map (·.1) = (Spec.signs evs).take (2 ^ p.h - q) ∧ out.map (·.2.q) = List.range' q out.length ∧ ∀ x ∈ out, lmsVerify (genKey p o id seed).pub x.1 x.2 = .ok true := by
  intro evs
  induction evs with
  | nil => intro q _ _; simp [lmsRun, Spec.signs]
  | cons e evs ih =>
    intro q hn hq
    have hn' : Spec.NoncesOk o evs := fun rd msg c h => hn rd msg c (List.mem_cons_of_mem _ h)
    have hlt : 2 ^ p.h ≤ 2 ^ 30 := Nat.pow_le_pow_right (by decide) hp.height
    cases e with
    | reload =>
      have := C104_key_bytes hp reg hro hrl id seed hid q (by omega)
      rw [if_neg (by omega), ← hseed, List.take_length] at this
      simp only [lmsRun, this]
      exact ih q hn' hq
    | sign rd msg optC =>
      have hC : ∀ c, optC = some c → c.length = o.N := fun c hc => hn rd msg c (by rw [hc]; exact List.mem_cons_self ..)
      simp only
      rcases C104_sign hp id seed q rd msg optC hC with ⟨h, hwhy⟩ | ⟨sig, h, hlt', hsq, hv⟩
      · simp only [lmsRun, h]
        obtain ⟨h1, h2, h3⟩ := ih q hn' hq
        refine ⟨?_, h2, h3⟩
        rw [h1]
        rcases hwhy with hge | ⟨rfl, rfl⟩
        · rw [show 2 ^ p.h - q = 0 by omega, List.take_zero, List.take_zero]
        · rfl
      · simp only [lmsRun, h]
        obtain ⟨h1, h2, h3⟩ := ih (q + 1) hn' hlt'
        have hs : Spec.signs (Ev.sign rd msg optC :: evs) = msg :: Spec.signs evs := by
          cases optC with
          | some c => cases rd <;> rfl
          | none => cases rd with
            | some r => rfl
            | none =>
              exfalso
              rcases lmsSign_ok hp id seed q hlt' none msg none with ⟨-, h'⟩ | ⟨k, s, ho, -⟩
              · rw [h] at h'; cases h'
              · rcases otsSign_fresh hp.ots q id seed msg none none with ⟨-, h⟩ | ⟨c, e, hn, -⟩
                · rw [ho] at h; cases h
                · cases hn
        refine ⟨?_, ?_, ?_⟩
        · rw [hs, List.map_cons, h1, show 2 ^ p.h - q = (2 ^ p.h - (q + 1)) + 1 by omega, List.take_succ_cons]
        · rw [List.map_cons, h2, List.length_cons, List.range'_succ]
          simp only [hsq]
        · intro x hx'
          rcases List.mem_cons.mp hx' with rfl | hx'
          · exact hv
          · exact h3 x hx'

/-- C105. For every history of calls on a key made from a seed: it answers the first `2^h` calls to sign (those with a failing
random source not counted) and no other; the signatures carry the indices 0, 1, 2, …, each once; each verifies. -/
theorem C105_history {p : LmsParam} {o : OtsParam} (hp : Spec.IsLms p o) (reg : Reg) (hro : reg.ots o.typ = some o) (hrl : reg.lms p.typ = some p) (id seed : Bytes) (hid : id.length = 16)
    (hseed : seed.length = p.M) (evs : List Ev) (hn : Spec.NoncesOk o evs) :
    let out := lmsRun reg evs (genKey p o id seed)
    out.map (·.1) = (Spec.signs evs).take (2 ^ p.h) ∧ out.map (·.2.q) = List.range out.length ∧ ∀ x ∈ out, lmsVerify (genKey p o id seed).pub x.1 x.2 = .ok true := by
  have := lmsRun_at hp reg hro hrl id seed hid hseed evs 0 hn (Nat.zero_le _)
  simp only [Nat.sub_zero, ← List.range_eq_range'] at this
  exact this

/-- C105. No one-time key signs twice. -/
theorem C105_once {p : LmsParam} {o : OtsParam} (hp : Spec.IsLms p o) (reg : Reg) (hro : reg.ots o.typ = some o) (hrl : reg.lms p.typ = some p) (id seed : Bytes) (hid : id.length = 16)
    (hseed : seed.length = p.M) (evs : List Ev) (hn : Spec.NoncesOk o evs) :
    ((lmsRun reg evs (genKey p o id seed)).map (·.2.q)).Nodup ∧ ∀ x ∈ lmsRun reg evs (genKey p o id seed), x.2.q < 2 ^ p.h := by
  obtain ⟨h1, h2, -⟩ := C105_history hp reg hro hrl id seed hid hseed evs hn
  refine ⟨by rw [h2]; exact List.nodup_range, ?_⟩
  intro x hx'
  have hm : x.2.q ∈ (lmsRun reg evs (genKey p o id seed)).map (·.2.q) := List.mem_map_of_mem hx'
  rw [h2, List.mem_range] at hm
  have hl := congrArg List.length h1
  rw [List.length_map, List.length_take] at hl
  omega

example : (lmsRun toyReg [.sign (some [9]) [7] none, .reload, .sign none [8] none, .sign none [8] (some [3]), .reload, .sign (some [9]) [7] none, .sign (some [9]) [7] none, .sign (some [1]) [1] none]
    (genKey toyLms toyOts toyId [1])).map (·.2.q) = [0, 1, 2, 3] := by decide +kernel

/-! ### C106: binding -/

/-- The hash inputs of the path from a leaf to the root. -/
def Spec.pathInputs (H : HashFn) (id : Bytes) : List Bytes → Nat → Bytes → List Bytes
  | [], _, _ => []
  | s :: path, n, t =>
    let a := id ++ hx 4 (n / 2) ++ dIntr ++ if n % 2 = 1 then s ++ t else t ++ s
    a :: Spec.pathInputs H id path (n / 2) (H.f a)

/-- The hash inputs of the Merkle tree of a key, on the way from leaf `q` to the root. -/
def Spec.treeInputs (h : Nat) (o : OtsParam) (id seed : Bytes) (q : Nat) : List Bytes :=
  (id ++ hx 4 (2 ^ h + q) ++ dLeaf ++ (newOtsKey o q id seed).pub.k) ::
  (List.range h).map fun d => id ++ hx 4 ((2 ^ h + q) / 2 ^ (d + 1)) ++ dIntr ++
    Spec.node h o id seed d (2 * ((2 ^ h + q) / 2 ^ (d + 1))) ++ Spec.node h o id seed d (2 * ((2 ^ h + q) / 2 ^ (d + 1)) + 1)

theorem climb_inj (h : Nat) (o : OtsParam) (id seed : Bytes) (n0 : Nat) : ∀ (path : List Bytes) (d : Nat) (t : Bytes), (∀ z ∈ path, z.length = o.H.size) → t.length = o.H.size → d + path.length = h →
    climb o.H id path (n0 / 2 ^ d) t = Spec.node h o id seed h (n0 / 2 ^ h) →
    t = Spec.node h o id seed d (n0 / 2 ^ d) ∨
    ∃ a ∈ Spec.pathInputs o.H id path (n0 / 2 ^ d) t, ∃ b ∈ (List.range h).map fun d => id ++ hx 4 (n0 / 2 ^ (d + 1)) ++ dIntr ++
      Spec.node h o id seed d (2 * (n0 / 2 ^ (d + 1))) ++ Spec.node h o id seed d (2 * (n0 / 2 ^ (d + 1)) + 1), a ≠ b ∧ o.H.f a = o.H.f b
  | [], d, t, _, _, hd, hc => by
    obtain rfl : d = h := by simpa using hd
    exact .inl hc
  | s :: path, d, t, hp, ht, hd, hc => by
    have e : n0 / 2 ^ d / 2 = n0 / 2 ^ (d + 1) := by rw [Nat.div_div_eq_div_mul, pow_succ]
    rw [List.length_cons] at hd
    have hs := hp s (List.mem_cons_self ..)
    rw [climb] at hc
    rw [e] at hc
    rcases climb_inj h o id seed n0 path (d + 1) _ (fun z hz => hp z (List.mem_cons_of_mem _ hz)) (o.H.len _) (by omega) hc with heq | ⟨a, ha, b, hb, hab⟩
    · by_cases hne : (id ++ hx 4 (n0 / 2 ^ (d + 1)) ++ dIntr ++ if n0 / 2 ^ d % 2 = 1 then s ++ t else t ++ s) =
          id ++ hx 4 (n0 / 2 ^ (d + 1)) ++ dIntr ++ Spec.node h o id seed d (2 * (n0 / 2 ^ (d + 1))) ++ Spec.node h o id seed d (2 * (n0 / 2 ^ (d + 1)) + 1)
      · left
        rw [List.append_assoc (_ ++ dIntr)] at hne
        have hne := List.append_cancel_left hne
        by_cases hodd : n0 / 2 ^ d % 2 = 1
        · rw [if_pos hodd] at hne
          obtain ⟨-, h2⟩ := List.append_inj hne (by rw [hs, node_length])
          rw [h2]
          congr 1
          omega
        · rw [if_neg hodd] at hne
          obtain ⟨h1, -⟩ := List.append_inj hne (by rw [ht, node_length])
          rw [h1]
          congr 1
          omega
      · right
        refine ⟨_, ?_, _, List.mem_map.mpr ⟨d, List.mem_range.mpr (by omega), rfl⟩, hne, ?_⟩
        · rw [Spec.pathInputs, e]; exact List.mem_cons_self ..
        · rw [heq, Spec.node]
    · right
      refine ⟨a, ?_, b, hb, hab⟩
      rw [Spec.pathInputs, e]
      exact List.mem_cons_of_mem _ ha

/-- C106. Every byte string accepted by `Verify` under the public key of a key made from a seed is the encoding of a signature
with an index below `2^h` whose one-time part is accepted under the one-time public key with that index; or the hash inputs of
this verification and those of the tree contain a collision. -/
theorem C106_binding {p : LmsParam} {o : OtsParam} (hp : Spec.IsLms p o) (reg : Reg) (hreg : Spec.IsLmsReg reg) (hro : reg.ots o.typ = some o) (hrl : reg.lms p.typ = some p) (id seed : Bytes)
    (msg b : Bytes) (h : lmsVerifyBytes reg (genKey p o id seed).pub msg b = .ok true) :
    ∃ q c y path, b = lmsSigBytes { p, q, ots := { p := o, c, y }, path } ∧ q < 2 ^ p.h ∧
      (otsVerify (newOtsKey o q id seed).pub msg { p := o, c, y } = .ok true ∨
       ∃ u ∈ (id ++ hx 4 (2 ^ p.h + q) ++ dLeaf ++ Spec.candidate o id q c y msg) ::
          Spec.pathInputs o.H id path (2 ^ p.h + q) (o.H.f (id ++ hx 4 (2 ^ p.h + q) ++ dLeaf ++ Spec.candidate o id q c y msg)),
        ∃ v ∈ Spec.treeInputs p.h o id seed q, u ≠ v ∧ o.H.f u = o.H.f v) := by
  rw [lmsVerifyBytes] at h
  rcases C104_bytes_partial reg hreg b with ⟨he, -⟩ | ⟨he, -⟩ | ⟨⟨p', q, ⟨o', c, y⟩, path⟩, he, hs, hro', hrl', hb⟩
  · rw [he] at h; cases h
  · rw [he] at h; cases h
  rw [he] at h
  simp only at h hro' hrl'
  have hos := (hreg.1 _ _ hro').2
  have hp' : p' = p := by
    by_contra hne
    have htyp : p.typ ≠ p'.typ := fun e => by rw [← e, hrl] at hrl'; exact hne (Option.some.inj hrl').symm
    rw [lmsVerify, if_pos (by exact htyp)] at h
    cases h
  subst hp'
  obtain ⟨b', hb', hiff⟩ := C104_verify (genKey p' o id seed).pub hp.height msg _ hos hs.path hs.q
  rw [h] at hb'
  cases hb'
  obtain ⟨-, htyp, hshape, hlead⟩ := hiff.mp rfl
  simp only at htyp hlead
  have ho' : o' = o := by
    rw [htyp] at hro'
    rw [show (genKey p' o id seed).pub.o = o from rfl, hro] at hro'
    exact (Option.some.inj hro').symm
  subst ho'
  refine ⟨q, c, y, path, hb.symm, hs.q, ?_⟩
  rw [← climb_leads, C104_root] at hlead
  rw [show (genKey p' o' id seed).pub.o = o' from rfl, show (genKey p' o' id seed).pub.id = id from rfl, show (genKey p' o' id seed).pub.p = p' from rfl] at hlead
  have hdiv : (2 ^ p'.h + q) / 2 ^ p'.h = 1 := by rw [Nat.add_div_left _ (Nat.two_pow_pos _), Nat.div_eq_of_lt hs.q]
  have hinj := climb_inj p'.h o' id seed (2 ^ p'.h + q) path 0 (o'.H.f (id ++ hx 4 (2 ^ p'.h + q) ++ dLeaf ++ Spec.candidate o' id q c y msg))
    (fun z hz => by rw [hs.each z hz, ← hos.size, ← hp.size]) (o'.H.len _) (by rw [Nat.zero_add]; exact hs.path) (by rw [hdiv, pow_zero, Nat.div_one]; exact hlead)
  rw [pow_zero, Nat.div_one] at hinj
  rcases hinj with heq | ⟨u, hu, v, hv, huv⟩
  · by_cases hne : id ++ hx 4 (2 ^ p'.h + q) ++ dLeaf ++ Spec.candidate o' id q c y msg = id ++ hx 4 (2 ^ p'.h + q) ++ dLeaf ++ (newOtsKey o' q id seed).pub.k
    · left
      have hk := List.append_cancel_left hne
      obtain ⟨b, hb, hiff⟩ := C102_verify (newOtsKey o' q id seed).pub msg { p := o', c, y } hos
      rw [hb, hiff.mpr ⟨rfl, hshape.c, hshape.y, hshape.each, hk⟩]
    · right
      refine ⟨_, List.mem_cons_self .., _, List.mem_cons_self .., hne, ?_⟩
      rw [heq, Spec.node, Nat.add_sub_cancel_left]
  · exact .inr ⟨u, List.mem_cons_of_mem _ hu, v, List.mem_cons_of_mem _ hv, huv⟩

end Verif.Pub.Lms
