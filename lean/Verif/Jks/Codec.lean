import Verif.Pub.Big
/-
Model of /repo/jceks/binary.go: the big-endian readers and writers of the key store formats.  A reader is the list of bytes
it has not delivered yet; `binary.Read` and `io.ReadFull` return an error when fewer bytes are left than asked for, whatever the
sizes of the pieces the underlying reader delivers.  Allocation never fails in the model, except that `make` panics for a negative
length.
-/
namespace Verif.Jks
open Verif.Cipher Verif.Pub

/-- A call that reads: it takes what is left of the input and returns the value and what is left then. -/
abbrev Rd (α : Type) := Bytes → Res (α × Bytes)

/-- Sequencing with the `if err != nil { return err }` after each call. -/
def Rd.bind {α β : Type} (r : Rd α) (f : α → Rd β) : Rd β := fun s => (r s).bind fun p => f p.1 p.2

/-- Return without reading. -/
def Rd.ret {α : Type} (a : α) : Rd α := fun s => .ok (a, s)

/-- Return an error. -/
def Rd.fail {α : Type} : Rd α := fun _ => .err

/-- `io.ReadFull` into `n` bytes (binary.go:80, 107, 131-140 `readOnly` with a length that is not negative). -/
def rdFull (n : Nat) : Rd Bytes := fun s => if s.length < n then .err else .ok (s.take n, s.drop n)

/-- `binary.Read(r, binary.BigEndian, &v)` of an unsigned integer of `n` bytes (binary.go:9-14, 20-25, 42-47). -/
def rdNat (n : Nat) : Rd Nat := (rdFull n).bind fun b => .ret (setBytes b)

/-- `int32` with the bit pattern `v`. -/
def signed32 (v : Nat) : Int := if v < 2 ^ 31 then v else (v : Int) - 2 ^ 32

/-- `int64` with the bit pattern `v`. -/
def signed64 (v : Nat) : Int := if v < 2 ^ 63 then v else (v : Int) - 2 ^ 64

/-- Conversion of an integer to `int64`. -/
def wrap64 (x : Int) : Int := (x + 2 ^ 63) % 2 ^ 64 - 2 ^ 63

/-- binary.go:31-36 `readInt32`: the bit pattern; `signed32` of it is the value. -/
def readInt32 : Rd Nat := rdNat 4

/-- binary.go:53-64 `readDate`. A `time.Time` is the number of nanoseconds since 1970: `time.Unix(v/1000, v%1000*1000000)` is the instant
of `v` milliseconds, also for negative `v`. -/
def readDate : Rd Int := (rdNat 8).bind fun v => .ret (signed64 v * 1000000)

/-- binary.go:75-89 `readUTF`. -/
def readUTF : Rd Bytes := (rdNat 2).bind fun n => rdFull n

/-- binary.go:104-118 `readBytes`: `make([]byte, length)` panics for a negative length. -/
def readBytes : Rd Bytes := readInt32.bind fun n => if signed32 n < 0 then fun _ => .panic else rdFull n

/-- binary.go:16-18, 27-29, 38-40, 49-51: writing an integer of `n` bytes, converted from `v`. -/
def wrNat (n v : Nat) : Bytes := hx n v

/-- binary.go:67-71 `writeDate`: `v.UnixNano() / int64(time.Millisecond)`; `UnixNano` wraps around outside the years 1678 to 2262, the division
truncates towards zero. -/
def writeDate (t : Int) : Bytes := hx 8 (((wrap64 t).tdiv 1000000) % 2 ^ 64).toNat

/-- binary.go:91-100 `writeUTF`: the length is converted to `uint16`. -/
def writeUTF (v : Bytes) : Bytes := wrNat 2 v.length ++ v

/-- binary.go:120-129 `writeBytes`: the length is converted to `int32`. -/
def writeBytes (v : Bytes) : Bytes := wrNat 4 v.length ++ v

/-! ### Lemmas -/

theorem Rd.bind_ok {α β : Type} (r : Rd α) (f : α → Rd β) (s : Bytes) (x : β × Bytes) :
    r.bind f s = .ok x ↔ ∃ v u, r s = .ok (v, u) ∧ f v u = .ok x := by
  rw [Rd.bind]
  cases h : r s with
  | ok p => obtain ⟨v, u⟩ := p; simp [Res.bind]
  | err => simp [Res.bind]
  | panic => simp [Res.bind]
  | hang => simp [Res.bind]

theorem Rd.bind_of_ok {α β : Type} {r : Rd α} {f : α → Rd β} {s u : Bytes} {v : α} (h : r s = .ok (v, u)) : r.bind f s = f v u := by
  rw [Rd.bind, h]; rfl

theorem Rd.ret_ok {α : Type} (a b : α) (s t : Bytes) : Rd.ret a s = .ok (b, t) ↔ a = b ∧ s = t := by
  simp [Rd.ret]

theorem rdFull_ok (n : Nat) (s b t : Bytes) : rdFull n s = .ok (b, t) ↔ b.length = n ∧ s = b ++ t := by
  rw [rdFull]
  split
  · rename_i h
    simp only [reduceCtorEq, false_iff, not_and]
    rintro h1 rfl
    simp only [List.length_append] at h
    omega
  · rename_i h
    rw [Res.ok.injEq, Prod.mk.injEq]
    constructor
    · rintro ⟨rfl, rfl⟩
      exact ⟨by rw [List.length_take]; omega, (List.take_append_drop n s).symm⟩
    · rintro ⟨rfl, rfl⟩
      exact ⟨List.take_left, List.drop_left⟩

theorem rdNat_ok (n : Nat) (s t : Bytes) (v : Nat) : rdNat n s = .ok (v, t) ↔ v < 256 ^ n ∧ s = hx n v ++ t := by
  rw [rdNat, Rd.bind_ok]
  simp only [Rd.ret_ok, rdFull_ok]
  constructor
  · rintro ⟨b, u, ⟨h1, h2⟩, h3, rfl⟩
    subst h1 h3
    exact ⟨setBytes_lt b, by rw [h2, hx_setBytes]⟩
  · rintro ⟨h1, h2⟩
    exact ⟨hx n v, t, ⟨hx_length _ _, h2⟩, setBytes_hx n v h1, rfl⟩

theorem readUTF_ok (s a t : Bytes) : readUTF s = .ok (a, t) ↔ a.length < 65536 ∧ s = hx 2 a.length ++ a ++ t := by
  rw [readUTF, Rd.bind_ok]
  simp only [rdNat_ok, rdFull_ok]
  constructor
  · rintro ⟨n, u, ⟨h1, h2⟩, h3, rfl⟩
    subst h3
    exact ⟨h1, by rw [h2, List.append_assoc]⟩
  · rintro ⟨h1, h2⟩
    exact ⟨a.length, a ++ t, ⟨h1, by rw [h2, List.append_assoc]⟩, rfl, rfl⟩

theorem readBytes_ok (s a t : Bytes) : readBytes s = .ok (a, t) ↔ a.length < 2 ^ 31 ∧ s = hx 4 a.length ++ a ++ t := by
  rw [readBytes, readInt32, Rd.bind_ok]
  simp only [rdNat_ok]
  constructor
  · rintro ⟨n, u, ⟨h1, h2⟩, h3⟩
    split at h3
    · cases h3
    · rename_i h
      obtain ⟨rfl, rfl⟩ := (rdFull_ok ..).1 h3
      rw [signed32] at h
      split at h
      · rename_i h'; exact ⟨h', by rw [h2, List.append_assoc]⟩
      · omega
  · rintro ⟨h1, h2⟩
    refine ⟨a.length, a ++ t, ⟨by omega, by rw [h2, List.append_assoc]⟩, ?_⟩
    rw [if_neg (by rw [signed32, if_pos h1]; omega)]
    exact (rdFull_ok ..).2 ⟨rfl, rfl⟩

/-- A negative length makes `readBytes` panic. -/
theorem readBytes_panic (n : Nat) (h1 : 2 ^ 31 ≤ n) (h2 : n < 2 ^ 32) (t : Bytes) : readBytes (hx 4 n ++ t) = .panic := by
  rw [readBytes, readInt32, Rd.bind_of_ok ((rdNat_ok 4 _ t n).2 ⟨h2, rfl⟩), if_pos]
  rw [signed32, if_neg (by omega)]
  omega

theorem readDate_ok (s t : Bytes) (d : Int) :
    readDate s = .ok (d, t) ↔ ∃ v : Nat, v < 2 ^ 64 ∧ d = signed64 v * 1000000 ∧ s = hx 8 v ++ t := by
  rw [readDate, Rd.bind_ok]
  simp only [rdNat_ok, Rd.ret_ok]
  constructor
  · rintro ⟨v, u, ⟨h1, h2⟩, h3, rfl⟩
    exact ⟨v, h1, h3.symm, h2⟩
  · rintro ⟨v, h1, h2, h3⟩
    exact ⟨v, t, ⟨h1, h3⟩, h2.symm, rfl⟩

/-- Milliseconds of an instant as written. -/
def stamp (t : Int) : Nat := (((wrap64 t).tdiv 1000000) % 2 ^ 64).toNat

theorem stamp_lt (t : Int) : stamp t < 2 ^ 64 := by unfold stamp; omega

theorem writeDate_eq (t : Int) : writeDate t = hx 8 (stamp t) := rfl

/-- Between the years 1678 and 2262 a date loses what is below a millisecond. -/
theorem stamp_signed (t : Int) (h1 : -(2 ^ 63) ≤ t) (h2 : t < 2 ^ 63) : signed64 (stamp t) = t.tdiv 1000000 := by
  have e : wrap64 t = t := by unfold wrap64; omega
  have b : -(2 ^ 63) ≤ t.tdiv 1000000 ∧ t.tdiv 1000000 < 2 ^ 63 := by
    rw [Int.tdiv_eq_ediv, show Int.sign 1000000 = 1 from rfl]
    split <;> omega
  unfold stamp signed64
  rw [e]
  generalize t.tdiv 1000000 = m at b
  split <;> omega

end Verif.Jks
