import Verif.Passhash.P9
import Verif.Kdf.Pbkdf2Props
import Verif.Pub.Big
/-
C123: password hashes in the "passhash9" format (/repo/passhash/passhash9).
-/
namespace Verif.Passhash
open Verif.Cipher Verif.Kdf Verif.Fernet Verif.Pub

/-! ### Base64 without slack: as many bytes as the characters can carry -/

theorem conv_len (v : List Nat) (h : v.length ≤ 4) : (conv v).length = v.length - 1 := by
  simp [conv]; omega

theorem quantum_cap (url : Bool) : ∀ (s : Bytes) (v : List Nat), v.length ≤ 3 →
    4 * (quantum url v s).2.1.length + 3 * (quantum url v s).1.length ≤ 3 * (v.length + s.length) ∧
    (0 < (quantum url v s).2.1.length → 4 * (quantum url v s).2.1.length + 3 * (quantum url v s).1.length = 3 * (v.length + s.length) →
      (quantum url v s).2.2 = false ∧ ∃ w, v.length + w.length = 4 ∧ (∀ x ∈ w, x < 64) ∧
        s = w.map (alpha url) ++ (quantum url v s).1 ∧ (quantum url v s).2.1 = conv (v ++ w))
  | [], v, hv => by simp [quantum]
  | c :: s, v, hv => by
    rw [quantum]
    cases hc : unalpha url c with
    | some x =>
      obtain ⟨hx1, hx2⟩ := unalpha_lt hc
      simp only
      by_cases h3 : v.length = 3
      · rw [if_pos h3]
        have := conv_len (v ++ [x]) (by simp; omega)
        simp only [List.length_append, List.length_cons, List.length_nil] at this
        simp only [this, List.length_cons]
        refine ⟨by omega, fun _ _ => ⟨trivial, [x], by simp; omega, by simpa using hx1, by simp [hx2], rfl⟩⟩
      · rw [if_neg h3]
        obtain ⟨i1, i2⟩ := quantum_cap url s (v ++ [x]) (by simp; omega)
        simp only [List.length_append, List.length_cons, List.length_nil] at i1 i2 ⊢
        refine ⟨by omega, fun h0 he => ?_⟩
        obtain ⟨q1, w, q2, q3, q4, q5⟩ := i2 h0 (by omega)
        refine ⟨q1, x :: w, by simp; omega, ?_, ?_, ?_⟩
        · intro y hy
          rcases List.mem_cons.1 hy with rfl | hy
          · exact hx1
          · exact q3 y hy
        · rw [List.map_cons, hx2, List.cons_append, ← q4]
        · rw [q5]; simp
    | none =>
      simp only
      by_cases hn : isNl c = true
      · rw [if_pos hn]
        obtain ⟨i1, i2⟩ := quantum_cap url s v hv
        simp only [List.length_cons]
        exact ⟨by omega, fun h0 he => by omega⟩
      rw [if_neg hn]
      have hdrop : ∀ s : Bytes, (s.dropWhile isNl).length ≤ s.length := fun s => (List.dropWhile_sublist isNl).length_le
      by_cases hp : c ≠ padChar
      · rw [if_pos hp]; simp; omega
      rw [if_neg hp]
      by_cases h2 : v.length < 2
      · rw [if_pos h2]; simp; omega
      rw [if_neg h2]
      by_cases h22 : v.length = 2
      · rw [if_pos h22]
        have := hdrop s
        cases hd : s.dropWhile isNl with
        | nil => simp
        | cons d s' =>
          rw [hd, List.length_cons] at this
          simp only
          by_cases hpp : d ≠ padChar
          · rw [if_pos hpp]; simp; omega
          · rw [if_neg hpp]
            have h4 := hdrop s'
            have h5 := conv_len v (by omega)
            simp only [quantumEnd, h5, List.length_cons]
            exact ⟨by omega, fun _ _ => by omega⟩
      · rw [if_neg h22]
        have h4 := hdrop s
        have h5 := conv_len v (by omega)
        simp only [quantumEnd, h5, List.length_cons]
        exact ⟨by omega, fun _ _ => by omega⟩

theorem enc_conv {url : Bool} {a b c d : Nat} (ha : a < 64) (hb : b < 64) (hc : c < 64) (hd : d < 64) (r : Bytes) :
    b64enc url (conv [a, b, c, d] ++ r) = alpha url a :: alpha url b :: alpha url c :: alpha url d :: b64enc url r := by
  simp only [conv, List.getD_cons_zero, List.getD_cons_succ, List.length_cons, List.length_nil, Nat.zero_add, Nat.reduceAdd, Nat.reduceSub,
    List.take_succ_cons, List.take_zero, List.cons_append, List.nil_append, b64enc, BitVec.toNat_ofNat]
  have e1 : (a * 4 + b / 16) % 2 ^ 8 / 4 = a := by omega
  have e2 : (a * 4 + b / 16) % 2 ^ 8 % 4 * 16 + (b % 16 * 16 + c / 4) % 2 ^ 8 / 16 = b := by omega
  have e3 : (b % 16 * 16 + c / 4) % 2 ^ 8 % 16 * 4 + (c % 4 * 64 + d) % 2 ^ 8 / 64 = c := by omega
  have e4 : (c % 4 * 64 + d) % 2 ^ 8 % 64 = d := by omega
  rw [e1, e2, e3, e4]

theorem decLoop_cap (url : Bool) : ∀ (f : Nat) (s : Bytes), s.length ≤ f →
    4 * (decLoop url f s).1.length ≤ 3 * s.length ∧
      (4 * (decLoop url f s).1.length = 3 * s.length → s = b64enc url (decLoop url f s).1)
  | 0, s, h => by
    have : s = [] := List.length_eq_zero_iff.1 (by omega)
    subst this; simp [decLoop, b64enc]
  | f + 1, s, h => by
    rw [decLoop]
    by_cases he : s.isEmpty = true
    · have : s = [] := by simpa using he
      subst this; simp [b64enc]
    rw [if_neg he]
    have hs : 0 < s.length := by rw [List.length_pos_iff]; simpa using he
    obtain ⟨c1, c2⟩ := quantum_cap url s [] (by simp)
    simp only [List.length_nil, Nat.zero_add] at c1 c2
    generalize hq : quantum url [] s = q at c1 c2 ⊢
    simp only
    by_cases h1 : q.2.2 = true
    · rw [if_pos h1]
      refine ⟨by simp only; omega, fun hh => ?_⟩
      simp only at hh
      by_cases h0 : 0 < q.2.1.length
      · have := c2 h0 (by omega)
        rw [this.1] at h1; cases h1
      · omega
    · rw [if_neg h1]
      by_cases h0 : 0 < q.2.1.length
      · obtain ⟨i1, i2⟩ := decLoop_cap url f q.1 (by omega)
        refine ⟨by simp only [List.length_append]; omega, fun hh => ?_⟩
        simp only [List.length_append] at hh
        obtain ⟨_, w, w1, w2, w3, w4⟩ := c2 h0 (by omega)
        have ih := i2 (by omega)
        match w, w1 with
        | [a, b, c, d], _ =>
          simp only at w3 w4 ⊢
          rw [w4, List.nil_append, enc_conv (w2 a (by simp)) (w2 b (by simp)) (w2 c (by simp)) (w2 d (by simp)), ← ih]
          exact w3
      · by_cases hlt : q.1.length < s.length
        · obtain ⟨i1, i2⟩ := decLoop_cap url f q.1 (by omega)
          refine ⟨by simp only [List.length_append]; omega, fun hh => ?_⟩
          simp only [List.length_append] at hh
          omega
        · -- nothing read: the quantum was empty, which needs an empty input
          exfalso
          have : ∀ (s : Bytes) (v : List Nat), 0 < s.length → (quantum url v s).1.length < s.length := by
            intro s
            induction s with
            | nil => intro v h; simp at h
            | cons c s ih =>
              intro v _
              have hdrop : ∀ s : Bytes, (s.dropWhile isNl).length ≤ s.length := fun s => (List.dropWhile_sublist isNl).length_le
              have ihs : ∀ v, (quantum url v s).1.length ≤ s.length := by
                intro v
                by_cases h : 0 < s.length
                · exact Nat.le_of_lt (ih v h)
                · have : s = [] := List.length_eq_zero_iff.1 (by omega)
                  subst this; simp [quantum]
              rw [quantum]
              split
              · split
                · simp
                · simp only [List.length_cons]; exact Nat.lt_succ_of_le (ihs _)
              · split
                · have := ihs v; simp only [List.length_cons]; omega
                · split
                  · simp
                  · split
                    · simp
                    · split
                      · have := hdrop s
                        split
                        · simp
                        · rename_i h5; rw [h5, List.length_cons] at this
                          split
                          · simp; omega
                          · simp only [quantumEnd, List.length_cons]; exact Nat.lt_of_le_of_lt (hdrop _) (by omega)
                      · have := hdrop s; simp only [quantumEnd, List.length_cons]; omega
          have := this s [] hs
          rw [hq] at this
          exact hlt this

theorem b64dec_tight {url : Bool} {s b : Bytes} (h : (b64dec url s).1 = b) (hl : 4 * b.length = 3 * s.length) : s = b64enc url b := by
  subst h
  exact (decLoop_cap url s.length s (Nat.le_refl _)).2 hl

/-! ### Specification -/

/-- The five algorithms of the format: the keyed function of each number, and the passwords it takes. -/
inductive Alg (A : Algs) : Nat → Prf → (Bytes → Prop) → Prop
  | sha1 : Alg A 0 A.sha1.hmac (fun _ => True)
  | sha256 : Alg A 1 A.sha256.hmac (fun _ => True)
  | cmac : Alg A 2 A.blowfishCmac (fun p => 1 ≤ p.length ∧ p.length ≤ 56)
  | sha384 : Alg A 3 A.sha384.hmac (fun _ => True)
  | sha512 : Alg A 4 A.sha512.hmac (fun _ => True)

/-- The passhash9 string: `$9$` and the base64 of algorithm, work factor, salt and 24 bytes of PBKDF2 output. -/
def p9 (P : Prf) (alg wf : Nat) (salt pass : Bytes) : Bytes :=
  [0x24#8, 0x39#8, 0x24#8] ++ b64enc false ([BitVec.ofNat 8 alg] ++ hx 2 wf ++ salt ++ Spec.pbkdf2 (P.f pass) P.size salt (10000 * wf) 24)

theorem Alg.get {A : Algs} {n : Nat} {P : Prf} {ok : Bytes → Prop} (h : Alg A n P ok) :
    ∃ kp, GetPbkdfPRF A n = some kp ∧ kp.prf = P ∧ (∀ k, kp.okKey k = true ↔ ok k) ∧ n ≤ 4 := by
  cases h <;> exact ⟨_, rfl, rfl, by simp, by omega⟩

theorem Alg.of_get {A : Algs} {n : Nat} {kp : KeyedPrf} (h : GetPbkdfPRF A n = some kp) : ∃ ok, Alg A n kp.prf ok ∧ ∀ k, kp.okKey k = true ↔ ok k := by
  rw [GetPbkdfPRF] at h
  split at h
  · rename_i h0; have : n = 0 := by omega
    subst this; cases h; exact ⟨_, .sha1, by simp⟩
  split at h
  · rename_i h0; have : n = 1 := by omega
    subst this; cases h; exact ⟨_, .sha256, by simp⟩
  split at h
  · rename_i h0; have : n = 2 := by omega
    subst this; cases h; exact ⟨_, .cmac, by simp⟩
  split at h
  · rename_i h0; have : n = 3 := by omega
    subst this; cases h; exact ⟨_, .sha384, by simp⟩
  split at h
  · rename_i h0; have : n = 4 := by omega
    subst this; cases h; exact ⟨_, .sha512, by simp⟩
  cases h

theorem pbkdf2_len (P : Prf) (pass salt : Bytes) (c L : Nat) : (Spec.pbkdf2 (P.f pass) P.size salt c L).length = L :=
  outBytes_length _ _ _ P.pos fun i => F_length _ _ (P.len pass) _ _ _

theorem pbkdf2Key_eq {kp : KeyedPrf} {pass salt : Bytes} {wf : Nat} (hw : 0 < wf) :
    pbkdf2Key kp pass salt (10000 * (wf : Int)) 24 =
      if kp.okKey pass = true then .ok (Spec.pbkdf2 (kp.prf.f pass) kp.prf.size salt (10000 * wf) 24) else .panic := by
  rw [pbkdf2Key]
  have := C84_pbkdf2 kp.prf pass salt (10000 * wf) 24 (by omega)
  rw [← this]
  rfl

/-! ### Generation -/

/-- A hash is made exactly for work factors 1 to 511, the five algorithms, passwords the algorithm takes and a random source
with 12 bytes left; it is the passhash9 string with those 12 bytes as salt. Everything else panics. -/
theorem C123_generate (A : Algs) (rand pass h : Bytes) (wf : BitVec 16) (algId : Int) :
    GenerateHash A rand pass wf algId = .ok h ↔
      ∃ (n : Nat) (P : Prf) (ok : Bytes → Prop), algId = (n : Int) ∧ Alg A n P ok ∧ ok pass ∧ 1 ≤ wf.toNat ∧ wf.toNat ≤ 511 ∧ 12 ≤ rand.length ∧
        h = p9 P n wf.toNat (rand.take 12) pass := by
  rw [GenerateHash]
  by_cases hw : wf.toNat > 0 ∧ wf.toNat < 512
  swap
  · rw [if_pos hw]; constructor
    · intro hh; cases hh
    · rintro ⟨_, _, _, _, _, _, _, _, _⟩; omega
  rw [if_neg (by simpa using hw)]
  cases hg : GetPbkdfPRF A algId with
  | none =>
    simp only
    constructor
    · intro hh; cases hh
    · rintro ⟨n, P, ok, rfl, ha, _⟩
      obtain ⟨kp, h1, _⟩ := ha.get
      rw [hg] at h1; cases h1
  | some kp =>
    have hn : ∃ n : Nat, algId = n := by
      by_cases h0 : 0 ≤ algId
      · exact ⟨algId.toNat, by omega⟩
      · rw [GetPbkdfPRF] at hg
        rw [if_neg (by omega), if_neg (by omega), if_neg (by omega), if_neg (by omega), if_neg (by omega)] at hg
        cases hg
    obtain ⟨n, rfl⟩ := hn
    obtain ⟨ok, ha, hok⟩ := Alg.of_get hg
    simp only
    by_cases hr : rand.length < 12
    · rw [if_pos hr]; constructor
      · intro hh; cases hh
      · rintro ⟨_, _, _, _, _, _, _, _, _, _⟩; omega
    rw [if_neg hr, pbkdf2Key_eq hw.1]
    constructor
    · intro hh
      split at hh
      · rename_i hk
        simp only [Res.bind, Res.ok.injEq] at hh
        refine ⟨n, _, ok, rfl, ha, (hok pass).1 hk, hw.1, by omega, by omega, ?_⟩
        rw [← hh, p9]; rfl
      · cases hh
    · rintro ⟨n', P, ok', hn', ha', hp, _, _, _, rfl⟩
      have : n' = n := by omega
      subst this
      obtain ⟨kp', q1, q2, q3, _⟩ := ha'.get
      rw [hg, Option.some.injEq] at q1
      subst q1
      rw [if_pos ((q3 pass).2 hp), q2]
      simp only [Res.bind, p9]
      rfl

/-! ### Comparison -/

theorem prefix_iff (p h : Bytes) : p <+: h ↔ h = p ++ h.drop p.length := by
  constructor
  · rintro ⟨r, rfl⟩; simp
  · intro hh; exact ⟨_, hh.symm⟩

/-- A password is accepted exactly for the one string of its algorithm, work factor and salt: there is no second spelling. The
work factor may be 1 to 512. -/
theorem C123_compare (A : Algs) (pass hash : Bytes) :
    CompareHash A pass hash = .ok true ↔
      ∃ n P ok wf salt, Alg A n P ok ∧ ok pass ∧ 1 ≤ wf ∧ wf ≤ 512 ∧ salt.length = 12 ∧ hash = p9 P n wf salt pass := by
  rw [CompareHash]
  constructor
  · intro h
    by_cases h1 : hash.length ≠ 3 + (39 * 8) / 6
    · rw [if_pos h1] at h; cases h
    rw [if_neg h1] at h
    by_cases h2 : ¬ MAGIC_PREFIX <+: hash
    · rw [if_pos h2] at h; cases h
    rw [if_neg h2] at h
    have hpre := (prefix_iff MAGIC_PREFIX hash).1 (not_not.1 h2)
    rw [show MAGIC_PREFIX.length = 3 from rfl] at hpre
    have hlen : (hash.drop 3).length = 52 := by simp at h1 ⊢; omega
    generalize hbin : (b64dec false (hash.drop 3)).1 = bin at h
    simp only at h
    by_cases h3 : bin.length ≠ 39
    · rw [if_pos h3] at h; cases h
    rw [if_neg h3] at h
    have h3' : bin.length = 39 := not_not.1 h3
    have henc := b64dec_tight hbin (by omega)
    match bin, h3' with
    | b0 :: b1 :: b2 :: rest, h3' =>
      simp only [List.getD_cons_zero, List.drop_succ_cons, List.drop_zero, List.take_succ_cons, List.take_zero] at h
      simp only [List.length_cons] at h3'
      have hbe : Kb.beN [b1, b2] = setBytes [b1, b2] := rfl
      have hwf : hx 2 (Kb.beN [b1, b2]) = [b1, b2] := by rw [hbe]; exact hx_setBytes [b1, b2]
      generalize Kb.beN [b1, b2] = wf at h hwf
      by_cases h4 : wf = 0
      · rw [if_pos h4] at h; cases h
      rw [if_neg h4] at h
      by_cases h5 : wf > 512
      · rw [if_pos h5] at h; cases h
      rw [if_neg h5] at h
      cases hg : GetPbkdfPRF A (b0.toNat : Int) with
      | none => rw [hg] at h; cases h
      | some kp =>
        rw [hg] at h
        simp only at h
        obtain ⟨ok, ha, hok⟩ := Alg.of_get hg
        rw [pbkdf2Key_eq (by omega)] at h
        split at h
        · rename_i hk
          simp only [Res.bind, Res.ok.injEq, decide_eq_true_eq] at h
          refine ⟨_, _, ok, wf, rest.take 12, ha, (hok pass).1 hk, by omega, by omega, by simp; omega, ?_⟩
          rw [hpre, henc, p9, h, hwf]
          have e : rest.take 12 ++ rest.drop 12 = rest := List.take_append_drop 12 rest
          have e0 : BitVec.ofNat 8 b0.toNat = b0 := by simp
          rw [e0]
          simp only [List.cons_append, List.nil_append, MAGIC_PREFIX, e]
        · cases h
  · rintro ⟨n, P, ok, wf, salt, ha, hp, h1, h2, hs, rfl⟩
    obtain ⟨kp, q1, rfl, q3, q4⟩ := ha.get
    have hdk := pbkdf2_len kp.prf pass salt (10000 * wf) 24
    have hl : (p9 kp.prf n wf salt pass).length = 55 := by
      simp [p9, b64enc_length, hs, hdk]
    rw [if_neg (by rw [hl]; decide), if_neg (by rw [not_not]; exact ⟨_, rfl⟩)]
    have hdec : (b64dec false ((p9 kp.prf n wf salt pass).drop 3)).1 =
        [BitVec.ofNat 8 n] ++ hx 2 wf ++ salt ++ Spec.pbkdf2 (kp.prf.f pass) kp.prf.size salt (10000 * wf) 24 := by
      have := b64dec_enc false [] (.inl rfl) ([BitVec.ofNat 8 n] ++ hx 2 wf ++ salt ++ Spec.pbkdf2 (kp.prf.f pass) kp.prf.size salt (10000 * wf) 24)
      rw [List.append_nil] at this
      rw [p9, show ([0x24#8, 0x39#8, 0x24#8] : Bytes) = [0x24#8, 0x39#8, 0x24#8] from rfl]
      simp only [List.cons_append, List.nil_append, List.drop_succ_cons, List.drop_zero] at this ⊢
      rw [this]
    rw [hdec]
    simp only
    generalize hD : Spec.pbkdf2 (kp.prf.f pass) kp.prf.size salt (10000 * wf) 24 = D at hdk
    have e2 : ∃ x y, hx 2 wf = [x, y] := ⟨_, _, by simp [hx, leBytes]; exact ⟨rfl, rfl⟩⟩
    obtain ⟨x, y, exy⟩ := e2
    have hwf : Kb.beN [x, y] = wf := by rw [← exy, Kb.beN_hx]; omega
    rw [exy]
    simp only [List.cons_append, List.nil_append, List.getD_cons_zero, List.drop_succ_cons, List.drop_zero, List.take_succ_cons, List.take_zero,
      List.length_cons, List.length_append, hs, hdk]
    have e0 : ((BitVec.ofNat 8 n).toNat : Int) = n := by simp; omega
    rw [if_neg (by decide), hwf, if_neg (by omega), if_neg (by omega), e0, q1]
    simp only
    have t1 : (salt ++ D).take 12 = salt := by rw [← hs, List.take_left]
    have t2 : (salt ++ D).drop 12 = D := by rw [← hs, List.drop_left]
    rw [t1, t2, pbkdf2Key_eq (by omega), if_pos ((q3 pass).2 hp), hD]
    simp [Res.bind]

/-- What was generated for a password is accepted with it. -/
theorem C123_roundtrip {A : Algs} {rand pass h : Bytes} {wf : BitVec 16} {algId : Int}
    (hg : GenerateHash A rand pass wf algId = .ok h) : CompareHash A pass h = .ok true := by
  obtain ⟨n, P, ok, _, ha, hp, h1, h2, h3, rfl⟩ := (C123_generate ..).1 hg
  exact (C123_compare ..).2 ⟨n, P, ok, _, _, ha, hp, h1, by omega, by simp; omega, rfl⟩

theorem b64enc_inj {url : Bool} {a b : Bytes} (h : b64enc url a = b64enc url b) : a = b := by
  have h1 := b64dec_enc url [] (.inl rfl) a
  have h2 := b64dec_enc url [] (.inl rfl) b
  rw [h, h2] at h1
  exact (Prod.mk.inj h1).1.symm

/-- Another password is accepted for it exactly when PBKDF2 gives the same 24 bytes (and the algorithm takes it). -/
theorem C123_other {A : Algs} {rand pass pass' h : Bytes} {wf : BitVec 16} {algId : Int}
    (hg : GenerateHash A rand pass wf algId = .ok h) :
    ∃ (n : Nat) (P : Prf) (ok : Bytes → Prop), algId = (n : Int) ∧ Alg A n P ok ∧ (CompareHash A pass' h = .ok true ↔ ok pass' ∧
      Spec.pbkdf2 (P.f pass') P.size (rand.take 12) (10000 * wf.toNat) 24 = Spec.pbkdf2 (P.f pass) P.size (rand.take 12) (10000 * wf.toNat) 24) := by
  obtain ⟨n, P, ok, ha0, ha, hp, h1, h2, h3, rfl⟩ := (C123_generate ..).1 hg
  refine ⟨n, P, ok, ha0, ha, ?_⟩
  rw [C123_compare]
  have hsl : (rand.take 12).length = 12 := by simp; omega
  constructor
  · rintro ⟨n', P', ok', wf', salt', ha', hp', w1, w2, hs', he⟩
    have e := b64enc_inj (List.append_cancel_left he)
    rw [List.append_assoc, List.append_assoc, List.append_assoc, List.append_assoc] at e
    have e1 := List.append_inj e (by simp)
    have e2 := List.append_inj e1.2 (by simp)
    have e3 := List.append_inj e2.2 (by rw [hsl, hs'])
    obtain ⟨kp, q1, q2, q3, q4⟩ := ha.get
    obtain ⟨kp', q1', q2', q3', q4'⟩ := ha'.get
    have hn : n = n' := by
      have := congrArg (fun l : Bytes => (l.getD 0 0).toNat) e1.1
      simp at this; omega
    subst hn
    rw [q1, Option.some.injEq] at q1'
    subst q1'
    have hwf : wf.toNat = wf' := by
      have h5 := congrArg Kb.beN e2.1
      have := wf.isLt
      rw [Kb.beN_hx, Kb.beN_hx] at h5; omega
    rw [← q2'] at e3
    rw [q2, ← hwf, ← e3.1] at e3
    exact ⟨(q3 _).1 ((q3' _).2 hp'), e3.2.symm⟩
  · rintro ⟨hp', he⟩
    exact ⟨n, P, ok, wf.toNat, rand.take 12, ha, hp', h1, by omega, hsl, by rw [p9, p9, he]⟩

/-! ### Panics on hashes and passwords from outside -/

/-- A stored hash with a work factor above 512 makes the comparison panic instead of failing, whatever the password. -/
theorem C123_workfactor_violated (A : Algs) (pass salt dk : Bytes) (alg : Byte) (wf : Nat) (h1 : 512 < wf) (h2 : wf < 65536)
    (hs : salt.length = 12) (hd : dk.length = 24) :
    CompareHash A pass ([0x24#8, 0x39#8, 0x24#8] ++ b64enc false ([alg] ++ hx 2 wf ++ salt ++ dk)) = .panic := by
  rw [CompareHash]
  have hl : ([0x24#8, 0x39#8, 0x24#8] ++ b64enc false ([alg] ++ hx 2 wf ++ salt ++ dk)).length = 55 := by
    simp [b64enc_length, hs, hd]
  rw [if_neg (by rw [hl]; decide), if_neg (by rw [not_not]; exact ⟨_, rfl⟩)]
  have hdec : (b64dec false (([0x24#8, 0x39#8, 0x24#8] ++ b64enc false ([alg] ++ hx 2 wf ++ salt ++ dk)).drop 3)).1 = [alg] ++ hx 2 wf ++ salt ++ dk := by
    have := b64dec_enc false [] (.inl rfl) ([alg] ++ hx 2 wf ++ salt ++ dk)
    rw [List.append_nil] at this
    simp only [List.cons_append, List.nil_append, List.drop_succ_cons, List.drop_zero] at this ⊢
    rw [this]
  rw [hdec]
  simp only
  have e2 : ∃ x y, hx 2 wf = [x, y] := ⟨_, _, by simp [hx, leBytes]; exact ⟨rfl, rfl⟩⟩
  obtain ⟨x, y, exy⟩ := e2
  have hwf : Kb.beN [x, y] = wf := by rw [← exy, Kb.beN_hx]; omega
  rw [exy]
  simp only [List.cons_append, List.nil_append, List.drop_succ_cons, List.drop_zero, List.take_succ_cons, List.take_zero,
    List.length_cons, List.length_append, hs, hd]
  rw [if_neg (by decide), hwf, if_neg (by omega), if_pos h1]

/-- With CMAC over Blowfish a password that is empty or longer than 56 bytes panics: when hashing and when comparing with any
well formed hash. -/
theorem C123_password_violated (A : Algs) (pass : Bytes) (hp : pass.length = 0 ∨ 56 < pass.length) :
    (∀ rand wf, GenerateHash A rand pass wf 2 = .panic) ∧
      ∀ salt dk wf, salt.length = 12 → dk.length = 24 → 1 ≤ wf → wf ≤ 512 →
        CompareHash A pass ([0x24#8, 0x39#8, 0x24#8] ++ b64enc false ([2#8] ++ hx 2 wf ++ salt ++ dk)) = .panic := by
  have hk : ¬ ((1 ≤ pass.length && pass.length ≤ 56) = true) := by simp; omega
  constructor
  · intro rand wf
    rw [GenerateHash]
    split
    · rfl
    · have : GetPbkdfPRF A 2 = some ⟨A.blowfishCmac, fun k => 1 ≤ k.length && k.length ≤ 56⟩ := rfl
      rw [this]
      simp only
      split
      · rfl
      · rw [pbkdf2Key, if_neg hk]; rfl
  · intro salt dk wf hs hd h1 h2
    rw [CompareHash]
    have hl : ([0x24#8, 0x39#8, 0x24#8] ++ b64enc false ([2#8] ++ hx 2 wf ++ salt ++ dk)).length = 55 := by
      simp [b64enc_length, hs, hd]
    rw [if_neg (by rw [hl]; decide), if_neg (by rw [not_not]; exact ⟨_, rfl⟩)]
    have hdec : (b64dec false (([0x24#8, 0x39#8, 0x24#8] ++ b64enc false ([2#8] ++ hx 2 wf ++ salt ++ dk)).drop 3)).1 = [2#8] ++ hx 2 wf ++ salt ++ dk := by
      have := b64dec_enc false [] (.inl rfl) ([2#8] ++ hx 2 wf ++ salt ++ dk)
      rw [List.append_nil] at this
      simp only [List.cons_append, List.nil_append, List.drop_succ_cons, List.drop_zero] at this ⊢
      rw [this]
    rw [hdec]
    simp only
    have e2 : ∃ x y, hx 2 wf = [x, y] := ⟨_, _, by simp [hx, leBytes]; exact ⟨rfl, rfl⟩⟩
    obtain ⟨x, y, exy⟩ := e2
    have hwf : Kb.beN [x, y] = wf := by rw [← exy, Kb.beN_hx]; omega
    rw [exy]
    simp only [List.cons_append, List.nil_append, List.getD_cons_zero, List.drop_succ_cons, List.drop_zero, List.take_succ_cons, List.take_zero,
      List.length_cons, List.length_append, hs, hd]
    have hG : GetPbkdfPRF A ((2#8 : Byte).toNat : Int) = some ⟨A.blowfishCmac, fun k => 1 ≤ k.length && k.length ≤ 56⟩ := rfl
    rw [if_neg (by decide), hwf, if_neg (by omega), if_neg (by omega), hG]
    simp only
    rw [pbkdf2Key, if_neg hk]; rfl

/-- The hypotheses are met: algorithm 1, work factor 102, the password "Password". -/
example (A : Algs) : ∃ h, GenerateHash A (List.replicate 12 7#8) [0x50#8, 0x61#8] 102#16 1 = .ok h :=
  ⟨_, (C123_generate ..).2 ⟨1, _, _, rfl, .sha256, trivial, by decide, by decide, by decide, rfl⟩⟩

end Verif.Passhash
