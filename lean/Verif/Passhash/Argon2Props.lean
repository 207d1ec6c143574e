import Verif.Passhash.Argon2Lemmas
/-
C124: Argon2 password strings (/repo/passhash/argon2fmt and /repo/passhash/argon2).
-/
namespace Verif.Passhash
open Verif.Fernet

/-- The types of argon2fmt, their names in the string and the Argon2 variants they stand for. -/
inductive Typ : Nat → Bytes → Mode → Prop
  | d : Typ 0 [0x61#8, 0x72#8, 0x67#8, 0x6f#8, 0x6e#8, 0x32#8, 0x64#8] .d
  | i : Typ 1 [0x61#8, 0x72#8, 0x67#8, 0x6f#8, 0x6e#8, 0x32#8, 0x69#8] .i
  | id : Typ 2 [0x61#8, 0x72#8, 0x67#8, 0x6f#8, 0x6e#8, 0x32#8, 0x69#8, 0x64#8] .id

/-- The types of the package argon2: those and "argon2", which is Argon2i too. -/
inductive PlainTyp : Nat → Bytes → Mode → Prop
  | std {n s m} : Typ n s m → PlainTyp n s m
  | legacy : PlainTyp 3 [0x61#8, 0x72#8, 0x67#8, 0x6f#8, 0x6e#8, 0x32#8] .i

/-- Options Argon2 can be run with. -/
def Opts.Good (o : Opts) : Prop := 1 ≤ o.time.toNat ∧ 1 ≤ o.threads.toNat ∧ 1 ≤ o.keyLen.toNat

/-- Argon2's value for a password, a salt and options. -/
def Opts.key (o : Opts) (A : Argon2Fn) (mode : Mode) (password salt : Bytes) : Bytes :=
  A.f mode password salt o.time.toNat o.memory.toNat o.threads.toNat o.keyLen.toNat

theorem derive_ok {A : Argon2Fn} {mode : Mode} {password salt k : Bytes} {o : Opts} :
    deriveKey A mode password salt o.time o.memory o.threads o.keyLen = .ok k ↔ o.Good ∧ k = o.key A mode password salt := by
  rw [deriveKey, Opts.Good, Opts.key]
  by_cases c1 : o.time.toNat < 1
  · rw [if_pos c1]; exact ⟨fun h => (by cases h), fun h => by omega⟩
  rw [if_neg c1]
  by_cases c2 : o.threads.toNat < 1
  · rw [if_pos c2]; exact ⟨fun h => (by cases h), fun h => by omega⟩
  rw [if_neg c2]
  by_cases c3 : o.keyLen.toNat = 0
  · rw [if_pos c3]; exact ⟨fun h => (by cases h), fun h => by omega⟩
  rw [if_neg c3, Res.ok.injEq]
  exact ⟨fun h => ⟨by omega, h.symm⟩, fun h => h.2.symm⟩

theorem bind_ok_iff {α β : Type} {r : Res α} {f : α → Res β} {b : β} : r.bind f = .ok b ↔ ∃ a, r = .ok a ∧ f a = .ok b := by
  cases r <;> simp [Res.bind]

/-- what a comparison does after parsing: recompute with the stored parameters (cut to 32 and 8 bits) and compare -/
def check (A : Argon2Fn) (mode : Mode) (password salt key : Bytes) (m t p : Nat) : Res Bool :=
  if t % 2 ^ 32 = 0 ∨ p % 256 = 0 ∨ key.length % 2 ^ 32 = 0 then .panic
  else if key = A.f mode password salt (t % 2 ^ 32) (m % 2 ^ 32) (p % 256) (key.length % 2 ^ 32) then .ok true else .err

theorem check_eq (A : Argon2Fn) (mode : Mode) (password salt key : Bytes) (m t p : Nat) :
    (deriveKey A mode password salt (BitVec.ofInt 32 (t : Int)) (BitVec.ofInt 32 (m : Int)) (BitVec.ofInt 8 (p : Int))
      (BitVec.ofNat 32 key.length)).bind (fun calculated => if key = calculated then .ok true else .err) = check A mode password salt key m t p := by
  rw [deriveKey, check]
  simp only [BitVec.ofInt_natCast, BitVec.toNat_ofNat]
  have e8 : 2 ^ 8 = 256 := rfl
  rw [e8]
  by_cases h1 : t % 2 ^ 32 = 0
  · rw [if_pos (by omega), if_pos (.inl h1)]; rfl
  rw [if_neg (by omega)]
  by_cases h2 : p % 256 = 0
  · rw [if_pos (by omega), if_pos (.inr (.inl h2))]; rfl
  rw [if_neg (by omega)]
  by_cases h3 : key.length % 2 ^ 32 = 0
  · rw [if_pos h3, if_pos (.inr (.inr h3))]; rfl
  rw [if_neg h3, if_neg (by omega)]
  rfl

theorem check_sound {A : Argon2Fn} {mode : Mode} {password salt key : Bytes} {t m : BitVec 32} {p : BitVec 8}
    (h : (deriveKey A mode password salt t m p (BitVec.ofNat 32 key.length)).bind (fun c => if key = c then Res.ok true else .err) = .ok true) :
    ∃ salt t m p, key ≠ [] ∧ 1 ≤ t ∧ 1 ≤ p ∧ A.f mode password salt t m p key.length = key := by
  obtain ⟨k, h1, h2⟩ := bind_ok_iff.1 h
  split at h2
  · rename_i hk
    subst hk
    rw [deriveKey] at h1
    split at h1
    · cases h1
    split at h1
    · cases h1
    split at h1
    · cases h1
    rename_i c1 c2 c3
    rw [Res.ok.injEq] at h1
    have hl := congrArg List.length h1
    rw [A.len] at hl
    refine ⟨salt, t.toNat, m.toNat, p.toNat, ?_, by omega, by omega, ?_⟩
    · rintro rfl
      simp at c3
    · rw [hl] at h1; exact h1
  · cases h2

namespace Fmt

theorem typeOf_iff {typ : Nat} {name : Bytes} {mode : Mode} : typeOf typ = some (name, mode) ↔ Typ typ name mode := by
  constructor
  · intro h
    rw [typeOf] at h
    split at h
    · rename_i h0; subst h0; cases h; exact .id
    split at h
    · rename_i h0; subst h0; cases h; exact .i
    split at h
    · rename_i h0; subst h0; cases h; exact .d
    cases h
  · intro h; cases h <;> rfl

theorem modeOf_named {typ : Nat} {name : Bytes} {mode : Mode} (h : Typ typ name mode) : modeOf name = some mode ∧ cDollar ∉ name := by
  cases h <;> exact ⟨by rfl, by decide⟩

/-- the PHC string `$name$v=19$m=…,t=…,p=…$salt$key` with any text for salt and key -/
def phc (name : Bytes) (m t p : Nat) (saltText keyText : Bytes) : Bytes :=
  0x24#8 :: (name ++ 0x24#8 :: ([0x76#8, 0x3d#8, 0x31#8, 0x39#8] ++ 0x24#8 :: (([0x6d#8, 0x3d#8] ++ dec m ++ 0x2c#8 ::
    ([0x74#8, 0x3d#8] ++ dec t ++ 0x2c#8 :: ([0x70#8, 0x3d#8] ++ dec p))) ++ 0x24#8 :: (saltText ++ 0x24#8 :: keyText))))

theorem format_phc (name : Bytes) (m t p : Nat) (salt key : Bytes) : format name m t p salt key = phc name m t p (rawEnc salt) (rawEnc key) := by
  simp [format, phc, sV19, cDollar, cM, cT, cP, cEq, cComma]

theorem param_eq {c : Byte} {n : Nat} (hc : c ≠ cEq) : split cEq ([c, 0x3d#8] ++ dec n) = [[c], dec n] := by
  have h := split_cons (c := cEq) (a := [c]) (rest := dec n) (by simp [Ne.symm hc])
  rw [split_one (dec_not (by decide))] at h
  exact h

theorem compare_phc (A : Argon2Fn) {typ : Nat} {name : Bytes} {mode : Mode} (hn : Typ typ name mode) {m t p : Nat} (hm : m < 2 ^ 63) (ht : t < 2 ^ 63) (hp : p < 2 ^ 63)
    {saltText keyText password : Bytes} (hs : cDollar ∉ saltText) (hk : cDollar ∉ keyText) (hpw : password ≠ []) :
    Compare A (phc name m t p saltText keyText) password = check A mode password (rawDec saltText) (rawDec keyText) m t p := by
  obtain ⟨h1, h2⟩ := modeOf_named hn
  have hps : cDollar ∉ [0x6d#8, 0x3d#8] ++ dec m ++ 0x2c#8 :: ([0x74#8, 0x3d#8] ++ dec t ++ 0x2c#8 :: ([0x70#8, 0x3d#8] ++ dec p)) := by
    have d : ∀ n, cDollar ∉ dec n := fun n => dec_not (by decide)
    simp only [List.mem_append, List.mem_cons, List.not_mem_nil, or_false, not_or, d]
    decide
  have e : split cDollar (phc name m t p saltText keyText) = [[], name, sV19,
      [0x6d#8, 0x3d#8] ++ dec m ++ 0x2c#8 :: ([0x74#8, 0x3d#8] ++ dec t ++ 0x2c#8 :: ([0x70#8, 0x3d#8] ++ dec p)), saltText, keyText] := by
    rw [phc]
    have s1 := split_cons (c := cDollar) (a := []) (rest := (name ++ 0x24#8 :: ([0x76#8, 0x3d#8, 0x31#8, 0x39#8] ++ 0x24#8 :: (([0x6d#8, 0x3d#8] ++ dec m ++ 0x2c#8 ::
      ([0x74#8, 0x3d#8] ++ dec t ++ 0x2c#8 :: ([0x70#8, 0x3d#8] ++ dec p))) ++ 0x24#8 :: (saltText ++ 0x24#8 :: keyText))))) (by simp)
    rw [List.nil_append] at s1
    refine s1.trans ?_
    rw [show (0x24#8 : Byte) = cDollar from rfl, split_cons h2, split_cons (by decide), split_cons hps, split_cons hs, split_one hk]
    rfl
  have ec : split cComma ([0x6d#8, 0x3d#8] ++ dec m ++ 0x2c#8 :: ([0x74#8, 0x3d#8] ++ dec t ++ 0x2c#8 :: ([0x70#8, 0x3d#8] ++ dec p))) =
      [[0x6d#8, 0x3d#8] ++ dec m, [0x74#8, 0x3d#8] ++ dec t, [0x70#8, 0x3d#8] ++ dec p] := by
    have d : ∀ n, cComma ∉ dec n := fun n => dec_not (by decide)
    have q : ∀ (c : Byte) n, c ≠ cComma → cComma ∉ [c, 0x3d#8] ++ dec n := by
      intro c n hc
      simp only [List.mem_append, List.mem_cons, List.not_mem_nil, or_false, not_or, d, not_false_eq_true, and_true]
      exact ⟨Ne.symm hc, by decide⟩
    rw [show (0x2c#8 : Byte) = cComma from rfl, split_cons (q _ _ (by decide)), split_cons (q _ _ (by decide)), split_one (q _ _ (by decide))]
  have ep : params ([0x6d#8, 0x3d#8] ++ dec m) ([0x74#8, 0x3d#8] ++ dec t) ([0x70#8, 0x3d#8] ++ dec p) = some ((m : Int), (t : Int), (p : Int)) := by
    simp only [params, param, param_eq (show (0x6d#8 : Byte) ≠ cEq by decide), param_eq (show (0x74#8 : Byte) ≠ cEq by decide),
      param_eq (show (0x70#8 : Byte) ≠ cEq by decide), atoi_dec hm, atoi_dec ht, atoi_dec hp]
    rfl
  rw [Compare, if_neg (by simp [phc, hpw]), e]
  simp only
  rw [if_neg (by simp), ec]
  simp only
  rw [ep]
  simp only
  rw [h1]
  simp only
  exact check_eq A mode password _ _ m t p

/-- A string is generated exactly for a non-empty password, a known type, good options and a random source with enough bytes. It is the PHC
string of that type, with the first `SaltLen` random bytes as salt and Argon2's value as key. -/
theorem C124_fmt_generate (A : Argon2Fn) (random password : Bytes) (typ : Nat) (opt : Opts) (h : Bytes) :
    Generate A random password typ opt = .ok h ↔
      ∃ name mode, Typ typ name mode ∧ password ≠ [] ∧ 0 ≤ opt.saltLen ∧ opt.saltLen ≤ random.length ∧ opt.Good ∧
        h = phc name opt.memory.toNat opt.time.toNat opt.threads.toNat (rawEnc (random.take opt.saltLen.toNat))
          (rawEnc (opt.key A mode password (random.take opt.saltLen.toNat))) := by
  have gen : ∀ salt, genWith A password salt typ opt = .ok h ↔ ∃ name mode, Typ typ name mode ∧ opt.Good ∧
      h = phc name opt.memory.toNat opt.time.toNat opt.threads.toNat (rawEnc salt) (rawEnc (opt.key A mode password salt)) := by
    intro salt
    rw [genWith]
    cases ht : typeOf typ with
    | none =>
      simp only
      constructor
      · intro hh; cases hh
      · rintro ⟨name, mode, h1, _⟩; rw [typeOf_iff.2 h1] at ht; cases ht
    | some nm =>
      obtain ⟨name, mode⟩ := nm
      have hT := typeOf_iff.1 ht
      simp only
      rw [bind_ok_iff]
      constructor
      · rintro ⟨k, h1, h2⟩
        obtain ⟨g, rfl⟩ := derive_ok.1 h1
        rw [format_phc, Res.ok.injEq] at h2
        exact ⟨name, mode, hT, g, h2.symm⟩
      · rintro ⟨name', mode', h1, g, rfl⟩
        have := typeOf_iff.2 h1
        rw [ht, Option.some.injEq, Prod.mk.injEq] at this
        obtain ⟨rfl, rfl⟩ := this
        exact ⟨_, derive_ok.2 ⟨g, rfl⟩, by rw [format_phc]⟩
  rw [Generate]
  by_cases hp : password.length = 0
  · rw [if_pos hp]
    constructor
    · intro hh; cases hh
    · rintro ⟨_, _, _, h1, _⟩; exact absurd (List.length_eq_zero_iff.1 hp) h1
  rw [if_neg hp, generateSalt]
  have hp' : password ≠ [] := fun e => hp (by simp [e])
  by_cases hl : opt.saltLen < 0
  · rw [if_pos hl]
    constructor
    · intro hh; cases hh
    · rintro ⟨_, _, _, _, h1, _⟩; omega
  rw [if_neg hl]
  by_cases hr : (random.length : Int) < opt.saltLen
  · rw [if_pos hr]
    constructor
    · intro hh; cases hh
    · rintro ⟨_, _, _, _, _, h1, _⟩; omega
  rw [if_neg hr]
  simp only [Res.bind]
  rw [gen]
  constructor
  · rintro ⟨n, m, h1, h2, h3⟩; exact ⟨n, m, h1, hp', by omega, by omega, h2, h3⟩
  · rintro ⟨n, m, h1, _, _, _, h2, h3⟩; exact ⟨n, m, h1, h2, h3⟩

/-- A generated string is accepted with a password exactly when the password is not empty and Argon2 gives the same key for it. -/
theorem C124_fmt_compare {A : Argon2Fn} {random password h : Bytes} {typ : Nat} {opt : Opts} (hg : Generate A random password typ opt = .ok h)
    (password' : Bytes) : ∃ name mode, Typ typ name mode ∧
      (Compare A h password' = .ok true ↔ password' ≠ [] ∧
        opt.key A mode password' (random.take opt.saltLen.toNat) = opt.key A mode password (random.take opt.saltLen.toNat)) := by
  obtain ⟨name, mode, hn, hp, h1, h2, ⟨c1, c2, c3⟩, rfl⟩ := (C124_fmt_generate ..).1 hg
  refine ⟨name, mode, hn, ?_⟩
  have := opt.time.isLt; have := opt.memory.isLt; have := opt.threads.isLt; have := opt.keyLen.isLt
  by_cases hp' : password' = []
  · subst hp'
    simp [Compare]
  · rw [compare_phc A hn (by omega) (by omega) (by omega) (rawEnc_dollar _) (rawEnc_dollar _) hp', rawDec_enc, rawDec_enc, check, Opts.key, Opts.key, A.len]
    rw [Nat.mod_eq_of_lt (by omega : opt.time.toNat < 2 ^ 32), Nat.mod_eq_of_lt (by omega : opt.memory.toNat < 2 ^ 32),
      Nat.mod_eq_of_lt (by omega : opt.threads.toNat < 256), Nat.mod_eq_of_lt (by omega : opt.keyLen.toNat < 2 ^ 32), if_neg (by omega)]
    constructor
    · intro hh
      split at hh
      · rename_i he; exact ⟨hp', he.symm⟩
      · cases hh
    · rintro ⟨_, he⟩
      rw [if_pos he.symm]

/-- The password a string was made for is accepted. -/
theorem C124_fmt_roundtrip {A : Argon2Fn} {random password h : Bytes} {typ : Nat} {opt : Opts} (hg : Generate A random password typ opt = .ok h) :
    Compare A h password = .ok true := by
  obtain ⟨name, mode, _, hc⟩ := C124_fmt_compare hg password
  obtain ⟨_, _, _, hp, _⟩ := (C124_fmt_generate ..).1 hg
  exact hc.2 ⟨hp, rfl⟩

/-- An accepted string always holds a key of at least one byte that Argon2 gives for the password. -/
theorem C124_fmt_sound {A : Argon2Fn} {h password : Bytes} (hc : Compare A h password = .ok true) :
    ∃ mode salt t m p pre text, h = pre ++ 0x24#8 :: text ∧ 0x24#8 ∉ text ∧ rawDec text ≠ [] ∧ 1 ≤ t ∧ 1 ≤ p ∧
      A.f mode password salt t m p (rawDec text).length = rawDec text := by
  obtain ⟨_, s2, s3⟩ := split_spec cDollar h
  rw [Compare] at hc
  split at hc
  · cases hc
  split at hc
  · rename_i a name v ps salt key hsp
    rw [hsp] at s2 s3
    split at hc
    · cases hc
    split at hc
    · split at hc
      · cases hc
      split at hc
      · cases hc
      rename_i mode _
      obtain ⟨salt', t, m, p, k1, k2, k3, k4⟩ := check_sound hc
      refine ⟨mode, salt', t, m, p, joinc cDollar [a, name, v, ps, salt], key, ?_, s2 key (by simp), k1, k2, k3, k4⟩
      rw [s3]; simp [joinc, cDollar]
    · cases hc
  · cases hc

/-- Stored strings that are not well formed make the comparison panic instead of returning an error: no passes, a number of lanes that is a
multiple of 256, or a key that does not decode to anything. -/
theorem C124_fmt_panic_violated (A : Argon2Fn) {typ : Nat} {name : Bytes} {mode : Mode} (hn : Typ typ name mode) (m t p : Nat)
    (hm : m < 2 ^ 63) (ht : t < 2 ^ 63) (hp : p < 2 ^ 63) (salt key password : Bytes) (hpw : password ≠ [])
    (hbad : t = 0 ∨ p % 256 = 0 ∨ key = []) : Compare A (phc name m t p (rawEnc salt) (rawEnc key)) password = .panic := by
  rw [compare_phc A hn hm ht hp (rawEnc_dollar _) (rawEnc_dollar _) hpw, rawDec_enc, rawDec_enc, check, if_pos]
  rcases hbad with rfl | h | rfl
  · exact .inl rfl
  · exact .inr (.inl h)
  · exact .inr (.inr rfl)

/-- A string is not the only spelling of its hash: when the key length is a multiple of three, anything that starts with a character outside
the base64 alphabet may be appended. -/
theorem C124_fmt_malleable_violated {A : Argon2Fn} {random password h : Bytes} {typ : Nat} {opt : Opts}
    (hg : Generate A random password typ opt = .ok h) (h3 : opt.keyLen.toNat % 3 = 0) (tail : Bytes) (ht : 0x24#8 ∉ tail) :
    Compare A (h ++ 0x21#8 :: tail) password = .ok true := by
  obtain ⟨name, mode, hn, hp, h1, h2, ⟨c1, c2, c3⟩, rfl⟩ := (C124_fmt_generate ..).1 hg
  have := opt.time.isLt; have := opt.memory.isLt; have := opt.threads.isLt; have := opt.keyLen.isLt
  have e : ∀ a b, phc name opt.memory.toNat opt.time.toNat opt.threads.toNat a b ++ 0x21#8 :: tail =
      phc name opt.memory.toNat opt.time.toNat opt.threads.toNat a (b ++ 0x21#8 :: tail) := by intro a b; simp [phc]
  have hd : cDollar ∉ rawEnc (opt.key A mode password (random.take opt.saltLen.toNat)) ++ 0x21#8 :: tail := by
    simp only [List.mem_append, List.mem_cons, not_or]
    exact ⟨rawEnc_dollar _, by decide, ht⟩
  rw [e, compare_phc A hn (by omega) (by omega) (by omega) (rawEnc_dollar _) hd hp, rawDec_enc,
    rawDec_enc_junk _ _ (.inr ⟨_, _, rfl, by decide +kernel, by decide⟩) (by rw [Opts.key, A.len]; exact h3), check, Opts.key, A.len]
  rw [Nat.mod_eq_of_lt (by omega : opt.time.toNat < 2 ^ 32), Nat.mod_eq_of_lt (by omega : opt.memory.toNat < 2 ^ 32),
    Nat.mod_eq_of_lt (by omega : opt.threads.toNat < 256), Nat.mod_eq_of_lt (by omega : opt.keyLen.toNat < 2 ^ 32), if_neg (by omega), if_pos rfl]

end Fmt

/-! ### The package argon2 -/

namespace Plain

theorem typeOf_iff {typ : Nat} {name : Bytes} {mode : Mode} : typeOf typ = some (name, mode) ↔ PlainTyp typ name mode := by
  constructor
  · intro h
    rw [typeOf] at h
    split at h
    · rename_i h0; subst h0; cases h; exact .std .id
    split at h
    · rename_i h0; subst h0; cases h; exact .std .i
    split at h
    · rename_i h0; subst h0; cases h; exact .legacy
    split at h
    · rename_i h0; subst h0; cases h; exact .std .d
    cases h
  · intro h
    cases h with
    | std h => cases h <;> rfl
    | legacy => rfl

theorem modeOf_named {typ : Nat} {name : Bytes} {mode : Mode} (h : PlainTyp typ name mode) : modeOf name = some mode ∧ cDollar ∉ name := by
  cases h with
  | std h => cases h <;> exact ⟨by rfl, by decide⟩
  | legacy => exact ⟨by rfl, by decide⟩

/-- the string `name$19$memory$time$threads$salt$key` with any text for salt and key -/
def str (name : Bytes) (m t p : Nat) (saltText keyText : Bytes) : Bytes :=
  name ++ 0x24#8 :: ([0x31#8, 0x39#8] ++ 0x24#8 :: (dec m ++ 0x24#8 :: (dec t ++ 0x24#8 :: (dec p ++ 0x24#8 :: (saltText ++ 0x24#8 :: keyText)))))

theorem format_str (name : Bytes) (m t p : Nat) (salt key : Bytes) : format name m t p salt key = str name m t p (rawEnc salt) (rawEnc key) := by
  simp [format, str, s19, cDollar]

theorem compare_str (A : Argon2Fn) {typ : Nat} {name : Bytes} {mode : Mode} (hn : PlainTyp typ name mode) {m t p : Nat} (hm : m < 2 ^ 63) (ht : t < 2 ^ 63) (hp : p < 2 ^ 63)
    {saltText keyText password : Bytes} (hs : cDollar ∉ saltText) (hk : cDollar ∉ keyText) (hpw : password ≠ []) :
    Compare A (str name m t p saltText keyText) password = check A mode password (rawDec saltText) (rawDec keyText) m t p := by
  obtain ⟨h1, h2⟩ := modeOf_named hn
  have d : ∀ n, cDollar ∉ dec n := fun n => dec_not (by decide)
  have e : split cDollar (str name m t p saltText keyText) = [name, s19, dec m, dec t, dec p, saltText, keyText] := by
    rw [str, show (0x24#8 : Byte) = cDollar from rfl, split_cons h2, split_cons (by decide), split_cons (d _), split_cons (d _), split_cons (d _), split_cons hs, split_one hk]
    rfl
  rw [Compare, if_neg (by simp [str, hpw]), e]
  simp only
  rw [if_neg (by decide), h1]
  simp only
  rw [atoi_dec hm, atoi_dec ht, atoi_dec hp]
  exact check_eq A mode password _ _ m t p

/-- A string is generated exactly for a non-empty password, a known type and good options. The salt is the first `SaltLen` random bytes, or
empty when there are fewer. -/
theorem C124_plain_generate (A : Argon2Fn) (random password : Bytes) (typ : Nat) (opt : Opts) (h : Bytes) :
    Generate A random password typ opt = .ok h ↔
      ∃ name mode salt, PlainTyp typ name mode ∧ password ≠ [] ∧ 0 ≤ opt.saltLen ∧ opt.Good ∧
        salt = (if opt.saltLen ≤ random.length then random.take opt.saltLen.toNat else []) ∧
        h = str name opt.memory.toNat opt.time.toNat opt.threads.toNat (rawEnc salt) (rawEnc (opt.key A mode password salt)) := by
  have gen : ∀ salt, genWith A password salt typ opt = .ok h ↔ ∃ name mode, PlainTyp typ name mode ∧ opt.Good ∧
      h = str name opt.memory.toNat opt.time.toNat opt.threads.toNat (rawEnc salt) (rawEnc (opt.key A mode password salt)) := by
    intro salt
    rw [genWith]
    cases ht : typeOf typ with
    | none =>
      simp only
      constructor
      · intro hh; cases hh
      · rintro ⟨name, mode, h1, _⟩; rw [typeOf_iff.2 h1] at ht; cases ht
    | some nm =>
      obtain ⟨name, mode⟩ := nm
      have hT := typeOf_iff.1 ht
      simp only
      rw [bind_ok_iff]
      constructor
      · rintro ⟨k, h1, h2⟩
        obtain ⟨g, rfl⟩ := derive_ok.1 h1
        rw [format_str, Res.ok.injEq] at h2
        exact ⟨name, mode, hT, g, h2.symm⟩
      · rintro ⟨name', mode', h1, g, rfl⟩
        have := typeOf_iff.2 h1
        rw [ht, Option.some.injEq, Prod.mk.injEq] at this
        obtain ⟨rfl, rfl⟩ := this
        exact ⟨_, derive_ok.2 ⟨g, rfl⟩, by rw [format_str]⟩
  rw [Generate]
  by_cases hp : password.length = 0
  · rw [if_pos hp]
    constructor
    · intro hh; cases hh
    · rintro ⟨_, _, _, _, h1, _⟩; exact absurd (List.length_eq_zero_iff.1 hp) h1
  rw [if_neg hp, generateSalt]
  have hp' : password ≠ [] := fun e => hp (by simp [e])
  by_cases hl : opt.saltLen < 0
  · rw [if_pos hl]
    constructor
    · intro hh; cases hh
    · rintro ⟨_, _, _, _, _, h1, _⟩; omega
  rw [if_neg hl]
  by_cases hr : (random.length : Int) < opt.saltLen
  · rw [if_pos hr]
    simp only [Res.bind, Option.getD_none]
    rw [gen, if_neg (by omega)]
    constructor
    · rintro ⟨n, m, h1, h2, h3⟩; exact ⟨n, m, [], h1, hp', by omega, h2, rfl, h3⟩
    · rintro ⟨n, m, s, h1, _, _, h2, rfl, h3⟩; exact ⟨n, m, h1, h2, h3⟩
  rw [if_neg hr]
  simp only [Res.bind, Option.getD_some]
  rw [gen, if_pos (by omega)]
  constructor
  · rintro ⟨n, m, h1, h2, h3⟩; exact ⟨n, m, _, h1, hp', by omega, h2, rfl, h3⟩
  · rintro ⟨n, m, s, h1, _, _, h2, rfl, h3⟩; exact ⟨n, m, h1, h2, h3⟩

/-- A generated string is accepted with a password exactly when the password is not empty and Argon2 gives the same key for it and the salt. -/
theorem C124_plain_compare {A : Argon2Fn} {random password h : Bytes} {typ : Nat} {opt : Opts} (hg : Generate A random password typ opt = .ok h) :
    ∃ name mode salt, PlainTyp typ name mode ∧ ∀ password', (Compare A h password' = .ok true ↔ password' ≠ [] ∧
        opt.key A mode password' salt = opt.key A mode password salt) := by
  obtain ⟨name, mode, salt, hn, hp, h1, ⟨c1, c2, c3⟩, _, rfl⟩ := (C124_plain_generate ..).1 hg
  refine ⟨name, mode, salt, hn, fun password' => ?_⟩
  have := opt.time.isLt; have := opt.memory.isLt; have := opt.threads.isLt; have := opt.keyLen.isLt
  by_cases hp' : password' = []
  · subst hp'
    simp [Compare]
  · rw [compare_str A hn (by omega) (by omega) (by omega) (rawEnc_dollar _) (rawEnc_dollar _) hp', rawDec_enc, rawDec_enc, check, Opts.key, Opts.key, A.len]
    rw [Nat.mod_eq_of_lt (by omega : opt.time.toNat < 2 ^ 32), Nat.mod_eq_of_lt (by omega : opt.memory.toNat < 2 ^ 32),
      Nat.mod_eq_of_lt (by omega : opt.threads.toNat < 256), Nat.mod_eq_of_lt (by omega : opt.keyLen.toNat < 2 ^ 32), if_neg (by omega)]
    constructor
    · intro hh
      split at hh
      · rename_i he; exact ⟨hp', he.symm⟩
      · cases hh
    · rintro ⟨_, he⟩
      rw [if_pos he.symm]

/-- The password a string was made for is accepted. -/
theorem C124_plain_roundtrip {A : Argon2Fn} {random password h : Bytes} {typ : Nat} {opt : Opts} (hg : Generate A random password typ opt = .ok h) :
    Compare A h password = .ok true := by
  obtain ⟨name, mode, salt, _, hc⟩ := C124_plain_compare hg
  obtain ⟨_, _, _, _, hp, _⟩ := (C124_plain_generate ..).1 hg
  exact (hc password).2 ⟨hp, rfl⟩

/-- An accepted string always holds a key of at least one byte that Argon2 gives for the password. -/
theorem C124_plain_sound {A : Argon2Fn} {h password : Bytes} (hc : Compare A h password = .ok true) :
    ∃ mode salt t m p pre text, h = pre ++ 0x24#8 :: text ∧ 0x24#8 ∉ text ∧ rawDec text ≠ [] ∧ 1 ≤ t ∧ 1 ≤ p ∧
      A.f mode password salt t m p (rawDec text).length = rawDec text := by
  obtain ⟨_, s2, s3⟩ := split_spec cDollar h
  rw [Compare] at hc
  split at hc
  · cases hc
  split at hc
  · rename_i name v ms ts ps salt key hsp
    rw [hsp] at s2 s3
    split at hc
    · cases hc
    split at hc
    · cases hc
    rename_i mode _
    obtain ⟨salt', t, m, p, k1, k2, k3, k4⟩ := check_sound hc
    refine ⟨mode, salt', t, m, p, joinc cDollar [name, v, ms, ts, ps, salt], key, ?_, s2 key (by simp), k1, k2, k3, k4⟩
    rw [s3]; simp [joinc, cDollar]
  · cases hc

/-- When the random source fails, a hash without salt is returned and no error: two calls with the same password, type and options then give
the same string, whatever the two sources delivered. -/
theorem C124_plain_unsalted_violated (A : Argon2Fn) {typ : Nat} {name : Bytes} {mode : Mode} (hn : PlainTyp typ name mode) (password : Bytes)
    (hp : password ≠ []) (opt : Opts) (ho : opt.Good) (random : Bytes) (hr : (random.length : Int) < opt.saltLen) :
    Generate A random password typ opt = .ok (str name opt.memory.toNat opt.time.toNat opt.threads.toNat [] (rawEnc (opt.key A mode password []))) :=
  (C124_plain_generate ..).2 ⟨name, mode, [], hn, hp, by omega, ho, by rw [if_neg (by omega)], rfl⟩

/-- Stored strings that are not well formed make the comparison panic instead of returning an error. -/
theorem C124_plain_panic_violated (A : Argon2Fn) {typ : Nat} {name : Bytes} {mode : Mode} (hn : PlainTyp typ name mode) (m t p : Nat)
    (hm : m < 2 ^ 63) (ht : t < 2 ^ 63) (hp : p < 2 ^ 63) (salt key password : Bytes) (hpw : password ≠ [])
    (hbad : t = 0 ∨ p % 256 = 0 ∨ key = []) : Compare A (str name m t p (rawEnc salt) (rawEnc key)) password = .panic := by
  rw [compare_str A hn hm ht hp (rawEnc_dollar _) (rawEnc_dollar _) hpw, rawDec_enc, rawDec_enc, check, if_pos]
  rcases hbad with rfl | h | rfl
  · exact .inl rfl
  · exact .inr (.inl h)
  · exact .inr (.inr rfl)

end Plain

/-- The hypotheses are met: the default options on four cores, type Argon2id, a one-letter password, a source of 32 bytes. -/
example (A : Argon2Fn) : (∃ h, Fmt.Generate A (List.replicate 32 9#8) [0x70#8] 2 ⟨32, 1#32, 65536#32, 4#8, 32#32⟩ = .ok h) ∧
    (∃ h, Plain.Generate A (List.replicate 32 9#8) [0x70#8] 2 ⟨32, 1#32, 65536#32, 4#8, 32#32⟩ = .ok h) :=
  ⟨⟨_, (Fmt.C124_fmt_generate ..).2 ⟨_, _, .id, by simp, by decide, by decide, ⟨by decide, by decide, by decide⟩, rfl⟩⟩,
    ⟨_, (Plain.C124_plain_generate ..).2 ⟨_, _, _, .std .id, by simp, by decide, ⟨by decide, by decide, by decide⟩, rfl, rfl⟩⟩⟩

end Verif.Passhash
