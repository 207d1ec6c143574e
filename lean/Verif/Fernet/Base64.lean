import Verif.Go.Slice
/-
Model of the parts of Go's `encoding/base64` that /repo/fernet uses (the padded, non-strict encodings `StdEncoding` and
`URLEncoding`), and of `encoding/hex.DecodeString`.  The library is not in /repo; it is modelled from its documented and
well known behaviour: decoding stops at the first error and reports the number of bytes written before it, `\r` and `\n`
are skipped everywhere, the unused low bits of the last character are ignored.  The eight- and four-character fast paths
give the same result as `decodeQuantum` and are not modelled apart.
-/
namespace Verif.Fernet

/-- The alphabets: `url = true` is `URLEncoding` (fernet.go:25), `false` is `StdEncoding` (key.go:72). -/
def alpha (url : Bool) (v : Nat) : Byte :=
  if v < 26 then BitVec.ofNat 8 (65 + v)
  else if v < 52 then BitVec.ofNat 8 (71 + v)
  else if v < 62 then BitVec.ofNat 8 (v - 4)
  else if v = 62 then (if url then 45#8 else 43#8)
  else (if url then 95#8 else 47#8)

/-- `decodeMap`: the value of a character, `none` for a character outside the alphabet. -/
def unalpha (url : Bool) (c : Byte) : Option Nat := (List.range 64).find? (fun v => alpha url v == c)

def padChar : Byte := 61#8

/-- `Encoding.Encode` (used at fernet.go:40, key.go:53). -/
def b64enc (url : Bool) : Bytes → Bytes
  | [] => []
  | [a] => [alpha url (a.toNat / 4), alpha url (a.toNat % 4 * 16), padChar, padChar]
  | [a, b] => [alpha url (a.toNat / 4), alpha url (a.toNat % 4 * 16 + b.toNat / 16),
      alpha url (b.toNat % 16 * 4), padChar]
  | a :: b :: c :: r =>
    alpha url (a.toNat / 4) :: alpha url (a.toNat % 4 * 16 + b.toNat / 16) ::
      alpha url (b.toNat % 16 * 4 + c.toNat / 64) :: alpha url (c.toNat % 64) :: b64enc url r

/-- `c == '\n' || c == '\r'`. -/
def isNl (c : Byte) : Bool := c == 10#8 || c == 13#8

/-- The three bytes of four six-bit values (`val := uint(dbuf[0])<<18 | …`), cut to `dlen-1` bytes. -/
def conv (v : List Nat) : Bytes :=
  let g := fun i => v.getD i 0
  [BitVec.ofNat 8 (g 0 * 4 + g 1 / 16), BitVec.ofNat 8 (g 1 % 16 * 16 + g 2 / 4),
    BitVec.ofNat 8 (g 2 % 4 * 64 + g 3)].take (v.length - 1)

/-- The end of a padded quantum: newlines are skipped; anything left is "trailing garbage": an error, but the bytes of
the quantum are still counted. -/
def quantumEnd (v : List Nat) (src : Bytes) : Bytes × Bytes × Bool :=
  let src := src.dropWhile isNl
  (src, conv v, !src.isEmpty)

/-- `decodeQuantum`: the rest of the input, the bytes written, and whether an error is returned. `v` holds the values
read so far in this quantum. -/
def quantum (url : Bool) (v : List Nat) : Bytes → Bytes × Bytes × Bool
  | [] => ([], [], !v.isEmpty)
  | c :: src =>
    match unalpha url c with
    | some x => if v.length = 3 then (src, conv (v ++ [x]), false) else quantum url (v ++ [x]) src
    | none =>
      if isNl c then quantum url v src
      else if c ≠ padChar then (src, [], true)
      else if v.length < 2 then (src, [], true)
      else if v.length = 2 then
        match src.dropWhile isNl with
        | [] => ([], [], true)
        | d :: src' => if d ≠ padChar then (src', [], true) else quantumEnd v src'
      else quantumEnd v src

/-- `Encoding.Decode`: the bytes written and whether an error is returned. Every quantum reads at least one character,
so `fuel = len(src)` is enough. -/
def decLoop (url : Bool) : (fuel : Nat) → Bytes → Bytes × Bool
  | 0, _ => ([], false)
  | f + 1, src =>
    if src.isEmpty then ([], false)
    else
      let q := quantum url [] src
      if q.2.2 then (q.2.1, true)
      else
        let r := decLoop url f q.1
        (q.2.1 ++ r.1, r.2)

def b64dec (url : Bool) (src : Bytes) : Bytes × Bool := decLoop url src.length src

/-- `hex` digit value: both cases are accepted. -/
def unhex (c : Byte) : Option Nat :=
  let n := c.toNat
  if 48 ≤ n ∧ n ≤ 57 then some (n - 48)
  else if 97 ≤ n ∧ n ≤ 102 then some (n - 87)
  else if 65 ≤ n ∧ n ≤ 70 then some (n - 55)
  else none

/-- `hex.DecodeString` (key.go:70): `none` when it returns an error. -/
def hexDec : Bytes → Option Bytes
  | [] => some []
  | [_] => none
  | a :: b :: r =>
    match unhex a, unhex b, hexDec r with
    | some x, some y, some t => some (BitVec.ofNat 8 (x * 16 + y) :: t)
    | _, _, _ => none

/-! ### lemmas -/

theorem unalpha_alpha (url : Bool) (v : Nat) (h : v < 64) : unalpha url (alpha url v) = some v := by
  have : ∀ u : Bool, ∀ v : Fin 64, unalpha u (alpha u v) = some v.val := by decide +kernel
  exact this url ⟨v, h⟩

theorem unalpha_pad (url : Bool) : unalpha url padChar = none := by cases url <;> decide +kernel

theorem unalpha_lt {url : Bool} {c : Byte} {v : Nat} (h : unalpha url c = some v) : v < 64 ∧ alpha url v = c := by
  unfold unalpha at h
  have h1 := List.find?_some h
  have h2 := List.mem_of_find?_eq_some h
  exact ⟨by simpa using h2, by simpa using h1⟩

theorem quantum_some {url : Bool} {c : Byte} {x : Nat} (h : unalpha url c = some x) (v : List Nat) (src : Bytes) :
    quantum url v (c :: src) =
      if v.length = 3 then (src, conv (v ++ [x]), false) else quantum url (v ++ [x]) src := by
  rw [quantum]
  simp [h]

theorem quantum_full (url : Bool) {v0 v1 v2 v3 : Nat} (h0 : v0 < 64) (h1 : v1 < 64) (h2 : v2 < 64) (h3 : v3 < 64)
    (r : Bytes) :
    quantum url [] (alpha url v0 :: alpha url v1 :: alpha url v2 :: alpha url v3 :: r)
      = (r, conv [v0, v1, v2, v3], false) := by
  rw [quantum_some (unalpha_alpha url v0 h0), if_neg (by simp), quantum_some (unalpha_alpha url v1 h1),
    if_neg (by simp), quantum_some (unalpha_alpha url v2 h2), if_neg (by simp),
    quantum_some (unalpha_alpha url v3 h3), if_pos (by simp)]
  rfl

theorem quantum_pad2 (url : Bool) {v0 v1 v2 : Nat} (h0 : v0 < 64) (h1 : v1 < 64) (h2 : v2 < 64) (r : Bytes) :
    quantum url [] (alpha url v0 :: alpha url v1 :: alpha url v2 :: padChar :: r)
      = quantumEnd [v0, v1, v2] r := by
  rw [quantum_some (unalpha_alpha url v0 h0), if_neg (by simp), quantum_some (unalpha_alpha url v1 h1),
    if_neg (by simp), quantum_some (unalpha_alpha url v2 h2), if_neg (by simp), quantum]
  have hn : ¬ isNl padChar = true := by decide
  simp [unalpha_pad, hn]

theorem quantum_pad1 (url : Bool) {v0 v1 : Nat} (h0 : v0 < 64) (h1 : v1 < 64) (r : Bytes) :
    quantum url [] (alpha url v0 :: alpha url v1 :: padChar :: padChar :: r)
      = quantumEnd [v0, v1] r := by
  have hn : ¬ isNl padChar = true := by decide
  rw [quantum_some (unalpha_alpha url v0 h0), if_neg (by simp), quantum_some (unalpha_alpha url v1 h1),
    if_neg (by simp), quantum]
  simp [unalpha_pad, hn]

theorem conv4 (a b c : Byte) :
    conv [a.toNat / 4, a.toNat % 4 * 16 + b.toNat / 16, b.toNat % 16 * 4 + c.toNat / 64, c.toNat % 64] = [a, b, c] := by
  have ha := a.isLt; have hb := b.isLt; have hc := c.isLt
  simp only [conv, List.getD_cons_zero, List.getD_cons_succ, List.length_cons, List.length_nil]
  have e1 : a.toNat / 4 * 4 + (a.toNat % 4 * 16 + b.toNat / 16) / 16 = a.toNat := by omega
  have e2 : (a.toNat % 4 * 16 + b.toNat / 16) % 16 * 16 + (b.toNat % 16 * 4 + c.toNat / 64) / 4 = b.toNat := by omega
  have e3 : (b.toNat % 16 * 4 + c.toNat / 64) % 4 * 64 + c.toNat % 64 = c.toNat := by omega
  rw [e1, e2, e3]
  simp

theorem conv3 (a b : Byte) :
    conv [a.toNat / 4, a.toNat % 4 * 16 + b.toNat / 16, b.toNat % 16 * 4] = [a, b] := by
  have ha := a.isLt; have hb := b.isLt
  simp only [conv, List.getD_cons_zero, List.getD_cons_succ, List.length_cons, List.length_nil, List.getD_nil]
  have e1 : a.toNat / 4 * 4 + (a.toNat % 4 * 16 + b.toNat / 16) / 16 = a.toNat := by omega
  have e2 : (a.toNat % 4 * 16 + b.toNat / 16) % 16 * 16 + (b.toNat % 16 * 4) / 4 = b.toNat := by omega
  rw [e1, e2]
  simp

theorem conv2 (a : Byte) : conv [a.toNat / 4, a.toNat % 4 * 16] = [a] := by
  have ha := a.isLt
  simp only [conv, List.getD_cons_zero, List.getD_cons_succ, List.length_cons, List.length_nil, List.getD_nil]
  have e1 : a.toNat / 4 * 4 + (a.toNat % 4 * 16) / 16 = a.toNat := by omega
  rw [e1]
  simp

/-- A tail that cannot begin another quantum: empty, or starting with a character outside the alphabet that is neither a
newline nor the padding character. -/
def Junk (url : Bool) (g : Bytes) : Prop :=
  g = [] ∨ ∃ c r, g = c :: r ∧ unalpha url c = none ∧ isNl c = false ∧ c ≠ padChar

theorem decLoop_junk {url : Bool} {g : Bytes} (h : Junk url g) (f : Nat) (hf : g.length ≤ f) :
    decLoop url f g = ([], !g.isEmpty) := by
  rcases h with h | ⟨c, r, rfl, h1, h2, h3⟩
  · subst h
    cases f <;> simp [decLoop]
  · cases f with
    | zero => simp at hf
    | succ f =>
      have : quantum url [] (c :: r) = (r, [], true) := by
        rw [quantum]
        simp [h1, h2, h3]
      simp [decLoop, this]

theorem quantumEnd_junk {url : Bool} {g : Bytes} (h : Junk url g) (v : List Nat) :
    quantumEnd v g = (g, conv v, !g.isEmpty) := by
  have : g.dropWhile isNl = g := by
    rcases h with h | ⟨c, r, rfl, h1, h2, h3⟩
    · simp [h]
    · simp [h2]
  simp [quantumEnd, this]

theorem decLoop_enc (url : Bool) (g : Bytes) (hg : Junk url g) (b : Bytes) :
    ∀ f, (b64enc url b ++ g).length ≤ f → decLoop url f (b64enc url b ++ g) = (b, !g.isEmpty) := by
  induction b using b64enc.induct with
  | case1 => intro f hf; simpa [b64enc] using decLoop_junk hg f (by simpa [b64enc] using hf)
  | case2 a =>
    intro f hf
    have ha := a.isLt
    cases f with
    | zero => simp [b64enc] at hf
    | succ f =>
      have hq := quantum_pad1 url (v0 := a.toNat / 4) (v1 := a.toNat % 4 * 16) (by omega) (by omega) g
      rw [quantumEnd_junk hg, conv2] at hq
      simp only [b64enc, List.cons_append, List.nil_append, decLoop, hq]
      cases hge : g.isEmpty
      · simp
      · have : g = [] := by simpa using hge
        subst this
        cases f <;> simp [decLoop]
  | case3 a b =>
    intro f hf
    have ha := a.isLt
    have hb := b.isLt
    cases f with
    | zero => simp [b64enc] at hf
    | succ f =>
      have hq := quantum_pad2 url (v0 := a.toNat / 4) (v1 := a.toNat % 4 * 16 + b.toNat / 16)
        (v2 := b.toNat % 16 * 4) (by omega) (by omega) (by omega) g
      rw [quantumEnd_junk hg, conv3] at hq
      simp only [b64enc, List.cons_append, List.nil_append, decLoop, hq]
      cases hge : g.isEmpty
      · simp
      · have : g = [] := by simpa using hge
        subst this
        cases f <;> simp [decLoop]
  | case4 a b c r ih =>
    intro f hf
    have ha := a.isLt
    have hb := b.isLt
    have hc := c.isLt
    cases f with
    | zero => simp [b64enc] at hf
    | succ f =>
      have hq := quantum_full url (v0 := a.toNat / 4) (v1 := a.toNat % 4 * 16 + b.toNat / 16)
        (v2 := b.toNat % 16 * 4 + c.toNat / 64) (v3 := c.toNat % 64) (by omega) (by omega) (by omega) (by omega)
        (b64enc url r ++ g)
      rw [conv4] at hq
      have hih := ih f (by simp [b64enc] at hf ⊢; omega)
      simp only [b64enc, List.cons_append, decLoop, hq, hih]
      simp

theorem b64dec_enc (url : Bool) (g : Bytes) (hg : Junk url g) (b : Bytes) :
    b64dec url (b64enc url b ++ g) = (b, !g.isEmpty) := decLoop_enc url g hg b _ (Nat.le_refl _)

theorem b64enc_length (url : Bool) (b : Bytes) : (b64enc url b).length = (b.length + 2) / 3 * 4 := by
  induction b using b64enc.induct with
  | case1 => rfl
  | case2 a => simp [b64enc]
  | case3 a b => simp [b64enc]
  | case4 a b c r ih => simp [b64enc, ih]; omega

/-! The two alphabets agree on all characters but the last two. -/

theorem alpha_same {v : Nat} (h : v < 62) : alpha true v = alpha false v := by
  have : ∀ v : Fin 62, alpha true v = alpha false v := by decide +kernel
  exact this ⟨v, h⟩

theorem unalpha_std {v : Nat} (h : v < 64) :
    unalpha false (alpha true v) = if v < 62 then some v else none := by
  have : ∀ v : Fin 64, unalpha false (alpha true v) = if v.val < 62 then some v.val else none := by decide +kernel
  exact this ⟨v, h⟩

theorem bad_url : ∀ v, v < 64 → ¬ v < 62 → isNl (alpha true v) = false ∧ alpha true v ≠ padChar := by
  have : ∀ v : Fin 64, ¬ v.val < 62 → isNl (alpha true v) = false ∧ alpha true v ≠ padChar := by decide +kernel
  intro v h h2
  exact this ⟨v, h⟩ h2

theorem quantum_end2 (url : Bool) (w : List Nat) (h : w.length = 2) (r : Bytes) :
    quantum url w (padChar :: padChar :: r) = quantumEnd w r := by
  have hn : ¬ isNl padChar = true := by decide
  rw [quantum]
  simp [unalpha_pad, hn, h]

theorem quantum_end3 (url : Bool) (w : List Nat) (h : w.length = 3) (r : Bytes) :
    quantum url w (padChar :: r) = quantumEnd w r := by
  have hn : ¬ isNl padChar = true := by decide
  rw [quantum]
  simp [unalpha_pad, hn, h]

/-- Reading one character of the URL alphabet with the standard decoder. -/
theorem quantum_cross {v : Nat} (h : v < 64) (w : List Nat) (src : Bytes) :
    quantum false w (alpha true v :: src) =
      if v < 62 then (if w.length = 3 then (src, conv (w ++ [v]), false) else quantum false (w ++ [v]) src)
      else (src, [], true) := by
  rw [quantum, unalpha_std h]
  by_cases h2 : v < 62
  · simp [h2]
  · obtain ⟨e1, e2⟩ := bad_url v h h2
    simp [h2, e1, e2]

theorem decLoop_cross (b : Bytes) :
    ∀ f, (b64enc true b).length ≤ f →
      (decLoop false f (b64enc true b)).2 = true ∨ decLoop false f (b64enc true b) = (b, false) := by
  induction b using b64enc.induct with
  | case1 => intro f hf; right; cases f <;> simp [b64enc, decLoop]
  | case2 a =>
    intro f hf
    have ha := a.isLt
    cases f with
    | zero => simp [b64enc] at hf
    | succ f =>
      have hq := quantum_cross (v := a.toNat / 4) (by omega) [] [alpha true (a.toNat % 4 * 16), padChar, padChar]
      rw [quantum_cross (v := a.toNat % 4 * 16) (by omega), quantum_end2 _ _ (by simp)] at hq
      simp only [b64enc, decLoop, hq]
      have h62 : a.toNat % 4 * 16 < 62 := by omega
      by_cases h0 : a.toNat / 4 < 62
      · right
        simp [h0, h62, quantumEnd, conv2]
        cases f <;> simp [decLoop]
      · left
        simp [h0]
  | case3 a b =>
    intro f hf
    have ha := a.isLt
    have hb := b.isLt
    cases f with
    | zero => simp [b64enc] at hf
    | succ f =>
      have hq := quantum_cross (v := a.toNat / 4) (by omega) []
        [alpha true (a.toNat % 4 * 16 + b.toNat / 16), alpha true (b.toNat % 16 * 4), padChar]
      rw [quantum_cross (v := a.toNat % 4 * 16 + b.toNat / 16) (by omega),
        quantum_cross (v := b.toNat % 16 * 4) (by omega), quantum_end3 _ _ (by simp)] at hq
      simp only [b64enc, decLoop, hq]
      have h62 : b.toNat % 16 * 4 < 62 := by omega
      by_cases h0 : a.toNat / 4 < 62
      · by_cases h1 : a.toNat % 4 * 16 + b.toNat / 16 < 62
        · right
          simp [h0, h1, h62, quantumEnd, conv3]
          cases f <;> simp [decLoop]
        · left
          simp [h0, h1]
      · left
        simp [h0]
  | case4 a b c r ih =>
    intro f hf
    have ha := a.isLt
    have hb := b.isLt
    have hc := c.isLt
    cases f with
    | zero => simp [b64enc] at hf
    | succ f =>
      have hq := quantum_cross (v := a.toNat / 4) (by omega) []
        (alpha true (a.toNat % 4 * 16 + b.toNat / 16) :: alpha true (b.toNat % 16 * 4 + c.toNat / 64) ::
          alpha true (c.toNat % 64) :: b64enc true r)
      rw [quantum_cross (v := a.toNat % 4 * 16 + b.toNat / 16) (by omega),
        quantum_cross (v := b.toNat % 16 * 4 + c.toNat / 64) (by omega),
        quantum_cross (v := c.toNat % 64) (by omega)] at hq
      have hih := ih f (by simp [b64enc] at hf ⊢; omega)
      simp only [b64enc, decLoop, hq]
      by_cases h0 : a.toNat / 4 < 62
      · by_cases h1 : a.toNat % 4 * 16 + b.toNat / 16 < 62
        · by_cases h2 : b.toNat % 16 * 4 + c.toNat / 64 < 62
          · by_cases h3 : c.toNat % 64 < 62
            · rcases hih with hih | hih
              · left
                simp [h0, h1, h2, h3, hih]
              · right
                simp [h0, h1, h2, h3, hih, conv4]
            · left
              simp [h0, h1, h2, h3]
          · left
            simp [h0, h1, h2]
        · left
          simp [h0, h1]
      · left
        simp [h0]

theorem b64dec_cross (b : Bytes) :
    (b64dec false (b64enc true b)).2 = true ∨ b64dec false (b64enc true b) = (b, false) :=
  decLoop_cross b _ (Nat.le_refl _)

end Verif.Fernet
