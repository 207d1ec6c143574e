import Verif.Bencode.Lemmas3
import Verif.Bencode.Dec
/-
Properties of `bencode`.
-/
set_option maxRecDepth 100000
namespace Verif.Bencode

/-- Values compared in the examples. -/
def sample : Val :=
  .dict [(ascii "a", .list [.int (-12), .str (ascii "xy"), .list []]), (ascii "ab", .int (2 ^ 70)), (ascii "b", .dict [])]

theorem lim_default : Lim defaultMaxStrLen := by decide
theorem default_nonneg : 0 ≤ defaultMaxStrLen := by decide

theorem sample_plain : Plain defaultMaxStrLen sample := by
  refine ⟨⟨by decide, by decide, trivial⟩, ⟨by decide, trivial, ?_, ?_, trivial⟩, ⟨by decide, trivial⟩, ⟨by decide, ?_⟩, trivial⟩
  · show ((ascii "xy").length : Int) ≤ _; decide
  · trivial
  · exact ⟨trivial, trivial⟩

/-- **C70** (no crash, no endless loop).  Every input, of any length and content, makes `Unmarshal` into an
`any`, a `map[string]any` or a `[]any` return: a value or an error, never a panic, and always after finitely
many steps (the recursion never goes deeper than twice the length of the input). -/
theorem C70_bencode_unmarshal_total (data : Bytes) :
    (unmarshal data ≠ .panic ∧ unmarshal data ≠ .hang) ∧
    (unmarshalMap data ≠ .panic ∧ unmarshalMap data ≠ .hang) ∧
    (unmarshalSlice data ≠ .panic ∧ unmarshalSlice data ≠ .hang) := by
  have hc : ∀ {α : Type} {n k : Nat} {r : Res (α × St)}, Fine n k r → complete r ≠ .panic ∧ complete r ≠ .hang := by
    intro α n k r h
    unfold complete
    cases r with
    | ok q => simp only [Res.bind]; split <;> simp
    | err => simp [Res.bind]
    | panic => exact absurd rfl h.2.1
    | hang => exact absurd rfl h.1
  refine ⟨hc (n := data.length) (k := 1) ?_, hc (n := data.length) (k := 1) ?_, hc (n := data.length) (k := 0) ?_⟩
  · refine fine_bind ((fine defaultMaxStrLen _).1 ⟨data, 0⟩ (by simp [fuel])) fun o s' h => ?_
    cases o with
    | none => exact fine_err _ _
    | some v => exact fine_ok _ _ _ _ h
  · refine fine_bind (fineDecodeMap defaultMaxStrLen _ [] ⟨data, 0⟩ (by simp [fuel])) fun o s' h => ?_
    cases o with
    | none => exact fine_err _ _
    | some v => exact fine_ok _ _ _ _ h
  · refine fine_bind (fine_readByte ⟨data, 0⟩) fun b st h => ?_
    simp only
    split
    · rw [parseSliceAny_err _ _ st (by simp [fuel] at h ⊢; omega)]; exact fine_err _ _
    · split
      · refine fine_bind (fine_weaken ((fineK defaultMaxStrLen _).1 st (by simp [fuel] at h ⊢; omega)) (by simp at h ⊢; omega) : Fine _ 0 _) fun o s' h' => ?_
        cases o with
        | none => exact fine_ok _ _ _ _ h'
        | some _ => exact fine_err _ _
      · exact fine_err _ _

example : unmarshal (ascii "li1e") = .err := of_isErr (by decide +kernel)
example : unmarshal (ascii "e") = .err := of_isErr (by decide +kernel)

/-- **C71** (exactness).  `Unmarshal(data, &x)` with `x any` succeeds exactly on the canonical bencode form
of a value: it then yields that value, and no other input is accepted (no leading zeros, no `-0`, no
unsorted or repeated keys, no trailing bytes, no truncated input). -/
theorem C71_bencode_exact (data : Bytes) (v : Val) :
    unmarshal data = .ok v ↔ Plain (2 ^ 27 - 1) v ∧ data = wire v := by
  constructor
  · intro h
    rw [unmarshal, complete, bind_eq_ok] at h
    obtain ⟨⟨w, s'⟩, h1, h2⟩ := h
    rw [decode, bind_eq_ok] at h1
    obtain ⟨⟨o, s2⟩, h3, h4⟩ := h1
    cases o with
    | none => cases h4
    | some u =>
      injection h4 with h4; injection h4 with h5 h6
      subst h5; subst h6
      obtain ⟨i1, i2, -⟩ := (sound defaultMaxStrLen _).1 _ _ _ h3
      simp only at h2 i2
      split at h2
      · cases h2
      · rename_i hz
        injection h2 with h2; subst h2
        have : s2.rest = [] := List.eq_nil_of_length_eq_zero (by omega)
        exact ⟨i1, by rw [i2, this, List.append_nil]⟩
  · rintro ⟨hp, rfl⟩
    have := completeV defaultMaxStrLen lim_default v (fuel ⟨wire v, 0⟩) [] 0 hp (by simp [fuel])
    rw [List.append_nil] at this
    rw [unmarshal, decode, this]
    simp [Res.bind, complete]

example : Plain (2 ^ 27 - 1) sample ∧ wire sample = ascii "d1:ali-12e2:xylee2:abi1180591620717411303424e1:bdee" :=
  ⟨sample_plain, by decide +kernel⟩
example : unmarshal (ascii "i-0e") = .err := of_isErr (by decide +kernel)
example : unmarshal (ascii "01:a") = .err := of_isErr (by decide +kernel)
example : unmarshal (ascii "d1:bi1e1:ai2ee") = .err := of_isErr (by decide +kernel)

/-- **C72** (round trip).  Whatever order Go enumerates maps in, `Marshal` of a value made of booleans,
integers of any size, strings, `[]byte`, slices and maps with string keys succeeds, gives the canonical form
(the same bytes on every call), and `Unmarshal` gives the value back; booleans come back as 0 or 1 and
`[]byte` as string. -/
theorem C72_bencode_roundtrip (shuffle : List (Bytes × Bytes) → List (Bytes × Bytes)) (hs : Enumeration shuffle)
    (v : Val) (h : Plain (2 ^ 27 - 1) (norm v)) :
    marshal shuffle v = .ok (wire (norm v)) ∧ unmarshal (wire (norm v)) = .ok (norm v) := by
  refine ⟨?_, (C71_bencode_exact _ _).2 ⟨h, rfl⟩⟩
  rw [marshal_enc shuffle v (by rintro rfl; simp [norm, Plain] at h)]
  exact enc_wire shuffle hs _ v h

/-- Re-encoding: what `Unmarshal` accepts, `Marshal` reproduces byte for byte. -/
theorem C72_bencode_reencode (shuffle : List (Bytes × Bytes) → List (Bytes × Bytes)) (hs : Enumeration shuffle)
    (data : Bytes) (v : Val) (h : unmarshal data = .ok v) : marshal shuffle v = .ok data := by
  obtain ⟨hp, rfl⟩ := (C71_bencode_exact _ _).1 h
  have hn := norm_plain _ v hp
  have := (C72_bencode_roundtrip shuffle hs v (by rw [hn]; exact hp)).1
  rwa [hn] at this

/-- Two values with the same encoding are the same value. -/
theorem C72_bencode_injective (shuffle shuffle' : List (Bytes × Bytes) → List (Bytes × Bytes)) (hs : Enumeration shuffle)
    (hs' : Enumeration shuffle') (v w : Val) (hv : Plain (2 ^ 27 - 1) v) (hw : Plain (2 ^ 27 - 1) w)
    (h : marshal shuffle v = marshal shuffle' w) : v = w := by
  have hnv := norm_plain _ v hv
  have hnw := norm_plain _ w hw
  have h1 := C72_bencode_roundtrip shuffle hs v (by rw [hnv]; exact hv)
  have h2 := C72_bencode_roundtrip shuffle' hs' w (by rw [hnw]; exact hw)
  rw [hnv] at h1; rw [hnw] at h2
  rw [h1.1, h2.1] at h
  injection h with h
  have := h1.2
  rw [h, h2.2] at this
  injection this with this
  exact this.symm

example : Enumeration List.reverse := fun l => List.reverse_perm l
example : Plain (2 ^ 27 - 1) (norm (.list [.bool true, .bytes (ascii "q"), sample])) :=
  ⟨trivial, show ((ascii "q").length : Int) ≤ _ by decide, sample_plain, trivial⟩

/-- `Decode` called repeatedly on one `Decoder`, collecting the values and the offsets after each. -/
def decodeMany (lim : Int) : Nat → St → Res (List (Val × Nat) × St)
  | 0, s => .ok ([], s)
  | n + 1, s => (decode lim s).bind fun r => (decodeMany lim n r.2).bind fun q => .ok ((r.1, r.2.off) :: q.1, q.2)

/-- The offsets after each of a sequence of encoded values. -/
def offsets : Nat → List Val → List (Val × Nat)
  | _, [] => []
  | o, v :: t => (v, o + (wire v).length) :: offsets (o + (wire v).length) t

/-- **C73** (streams).  A `Decoder` reading a concatenation of encoded values returns them one by one, leaves
everything after them unread, and after each call `Offset` is the number of bytes consumed so far. -/
theorem C73_bencode_stream (lim : Int) (hl : lim < 2 ^ 63) (vs : List Val) (rest : Bytes) (o : Nat) (h : ∀ v ∈ vs, Plain lim v) :
    decodeMany lim vs.length ⟨(vs.map wire).flatten ++ rest, o⟩ =
      .ok (offsets o vs, ⟨rest, o + ((vs.map wire).flatten).length⟩) := by
  induction vs generalizing o with
  | nil => simp [decodeMany, offsets]
  | cons v t ih =>
    have := completeV lim hl v (fuel ⟨((v :: t).map wire).flatten ++ rest, o⟩) ((t.map wire).flatten ++ rest) o (h v (by simp))
      (by simp [fuel]; omega)
    rw [List.length_cons, decodeMany, decode]
    simp only [List.map_cons, List.flatten_cons, List.append_assoc] at this ⊢
    rw [this]
    simp only [Res.bind]
    rw [ih _ (fun x hx => h x (by simp [hx]))]
    simp [offsets]; omega

/-- Every successful `Decode` consumes exactly the bytes of one canonical value and adds their number to
`Offset`. -/
theorem C73_bencode_offset (lim : Int) (s s' : St) (v : Val) (h : decode lim s = .ok (v, s')) :
    s.rest = wire v ++ s'.rest ∧ s'.off = s.off + (wire v).length := by
  rw [decode, bind_eq_ok] at h
  obtain ⟨⟨o, s2⟩, h3, h4⟩ := h
  cases o with
  | none => cases h4
  | some u =>
    injection h4 with h4; injection h4 with h5 h6
    subst h5; subst h6
    exact ((sound lim _).1 _ _ _ h3).2

example : ∃ s', decode defaultMaxStrLen ⟨ascii "i7e4:spamle", 3⟩ = .ok (.int 7, s') ∧ s'.off = 6 := ⟨⟨ascii "4:spamle", 6⟩, by rfl, rfl⟩

/-- **C74** (maps as targets).  `Unmarshal` into a nil `map[string]any` (or `Data`) gives back every map that
was marshalled; and whatever it accepts is a map with each key once, bounded strings and plain values. -/
theorem C74_bencode_map_roundtrip_partial (l : List (Bytes × Val)) (h : Plain (2 ^ 27 - 1) (.dict l)) :
    unmarshalMap (wire (.dict l)) = .ok l := by
  obtain ⟨hi, hp⟩ := h
  have hm := parseMap_ok defaultMaxStrLen lim_default l [] (2 * (wireD l).length + 5) [] 1
    (by simpa using increasing_pairwise _ hi) hp (by omega)
  rw [unmarshalMap, wire_dict]
  have hfuel : fuel ⟨chD :: (wireD l ++ [chE]), 0⟩ = 2 * (wireD l).length + 5 + 1 := by
    simp [fuel]; omega
  rw [hfuel, decodeMapF]
  simp only [readByte, Res.bind, show ¬ chD = chE by decide, if_false, if_true, hm, complete]
  simp

theorem C74_bencode_map_wellformed_partial (data : Bytes) (m : List (Bytes × Val)) (h : unmarshalMap data = .ok m) :
    Plain (2 ^ 27 - 1) (.dict m) := by
  rw [unmarshalMap, complete, bind_eq_ok] at h
  obtain ⟨⟨m1, s'⟩, h1, h2⟩ := h
  rw [bind_eq_ok] at h1
  obtain ⟨⟨o, s2⟩, h3, h4⟩ := h1
  cases o with
  | none => cases h4
  | some u =>
    injection h4 with h4; injection h4 with h5 h6
    subst h5; subst h6
    simp only at h2
    split at h2
    · cases h2
    · injection h2 with h2; subst h2
      have hg := decodeMapF_good defaultMaxStrLen default_nonneg _ _ _ _ _ ⟨List.Pairwise.nil, trivial⟩ h3
      exact ⟨pairwise_increasing _ (by rw [List.pairwise_map]; exact hg.1), hg.2⟩

/-- The exactness that `any` targets have does not hold for maps: keys in the wrong order, a repeated key (the
last wins), a key given as a one-element list and a key given as an empty dictionary are all accepted. -/
theorem C74_bencode_map_exact_violated :
    unmarshalMap (ascii "d1:bi1e1:ai2ee") = .ok [(ascii "a", .int 2), (ascii "b", .int 1)] ∧
    unmarshalMap (ascii "d1:ai1e1:ai2ee") = .ok [(ascii "a", .int 2)] ∧
    unmarshalMap (ascii "dl1:aei1ee") = .ok [(ascii "a", .int 1)] ∧
    unmarshalMap (ascii "ddei1ee") = .ok [([], .int 1)] ∧
    unmarshalMap (ascii "ld1:ai1eee") = .ok [(ascii "a", .int 1)] := by
  refine ⟨okD ?_, okD ?_, okD ?_, okD ?_, okD ?_⟩ <;> decide +kernel

example : unmarshalMap (wire sample) = .ok [(ascii "a", .list [.int (-12), .str (ascii "xy"), .list []]), (ascii "ab", .int (2 ^ 70)), (ascii "b", .dict [])] :=
  C74_bencode_map_roundtrip_partial _ sample_plain

/-- **C75** (slices and arrays).  A `[]any` never survives: no input whatever makes `Unmarshal` into a
`[]any` deliver an element, and the encoding of every list is rejected, although `Marshal` wrote it. -/
theorem C75_bencode_slice_violated (data : Bytes) (l : List Val) :
    unmarshalSlice (wire (.list l)) = .err ∧ (unmarshalSlice data = .ok l → l = []) := by
  constructor
  · rw [unmarshalSlice, wire_list]
    simp only [readByte, Res.bind, if_true]
    rw [parseSliceAny_err _ _ _ (by simp [fuel]; omega)]
    rfl
  · intro h
    rw [unmarshalSlice, complete, bind_eq_ok] at h
    obtain ⟨⟨x, s'⟩, h1, h2⟩ := h
    rw [bind_eq_ok] at h1
    obtain ⟨⟨b, st⟩, h3, h4⟩ := h1
    have hl : st.rest.length + 1 ≤ data.length := (fine_readByte ⟨data, 0⟩).2.2 _ _ h3
    simp only at h4 h2
    split at h4
    · rw [parseSliceAny_err _ _ _ (by simp [fuel]; omega)] at h4; cases h4
    · split at h4
      · rw [bind_eq_ok] at h4
        obtain ⟨⟨o, q⟩, h5, h6⟩ := h4
        cases o with
        | none =>
          injection h6 with h6; injection h6 with h7 h8
          subst h7; subst h8
          simp only at h2
          split at h2
          · cases h2
          · injection h2 with h2; exact h2.symm
        | some _ => cases h6
      · cases h4

/-- A Go array (other than `[n]byte`) is never encoded: `Marshal` returns an error for it, for every
enumeration order and whatever it contains, also when it is the element of a list or of a map. -/
theorem C75_bencode_array_violated (shuffle : List (Bytes × Bytes) → List (Bytes × Bytes)) (l : List Val) (k : Bytes) :
    marshal shuffle (.array l) = .err ∧ marshal shuffle (.list [.array l]) = .err ∧
    marshal shuffle (.dict [(k, .array l)]) = .err := by
  refine ⟨rfl, rfl, rfl⟩

/-- The same elements in a slice are encoded and come back through an `any`. -/
theorem C75_bencode_slice_via_any_partial (shuffle : List (Bytes × Bytes) → List (Bytes × Bytes)) (hs : Enumeration shuffle)
    (l : List Val) (h : Plain (2 ^ 27 - 1) (.list l)) :
    ∃ b, marshal shuffle (.list l) = .ok b ∧ unmarshal b = .ok (.list l) := by
  have hn := norm_plain _ _ h
  have := C72_bencode_roundtrip shuffle hs (.list l) (by rw [hn]; exact h)
  rw [hn] at this
  exact ⟨_, this⟩

example : unmarshalSlice (ascii "li1ei2ee") = .err := of_isErr (by decide +kernel)
example : unmarshalSlice (ascii "de") = .ok [] := by rfl

end Verif.Bencode
