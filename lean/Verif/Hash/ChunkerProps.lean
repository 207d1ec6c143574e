import Verif.Hash.ChunkerLemmas
/-
C164: content-defined chunking (hash/rabin/chunker.go).
-/
namespace Verif.Rabin
open Gf2

theorem chunk_unique {P w mn avg mx : Nat} {T : Bytes} {n n' : Nat} (h : IsChunk P w mn avg mx T n) (h' : IsChunk P w mn avg mx T n') : n = n' := by
  have key : ∀ {a b : Nat}, IsChunk P w mn avg mx T a → IsChunk P w mn avg mx T b → ¬ a < b := by
    intro a b ha hb hl
    have h1 := hb.le
    have h2 := hb.max
    have h3 := ha.min
    rcases ha.stop with q | q | q
    · omega
    · omega
    · exact hb.first a (by omega) hl q
  have a := key h h'
  have b := key h' h
  omega

/-- C164: the cut of a stream into chunks is unique: it is a function of the content and the parameters only. -/
theorem C164_unique (P w mn avg mx : Nat) (T : Bytes) (ns ns' : List Nat) (h : Chunks P w mn avg mx T ns) (h' : Chunks P w mn avg mx T ns') : ns = ns' := by
  induction h generalizing ns' with
  | nil =>
    cases h' with
    | nil => rfl
    | cons h0 hc _ => have := hc.le; simp at this; omega
  | cons h0 hc _ ih =>
    cases h' with
    | nil => have := hc.le; simp at this; omega
    | cons h0' hc' t' =>
      have := chunk_unique hc hc'
      subst this
      rw [ih _ t']

/-- C164: the chunks cover the stream, none is empty or longer than the maximum, and only the last may be shorter than the minimum. -/
theorem C164_cover (P w mn avg mx : Nat) (T : Bytes) (ns : List Nat) (h : Chunks P w mn avg mx T ns) :
    ns.sum = T.length ∧ (∀ n ∈ ns, 0 < n ∧ n ≤ mx) ∧ ∀ n ∈ ns.dropLast, mn ≤ n := by
  induction h with
  | nil => simp
  | @cons T n ns h0 hc t ih =>
    obtain ⟨i1, i2, i3⟩ := ih
    have hl := hc.le
    refine ⟨?_, ?_, ?_⟩
    · rw [List.sum_cons, i1, List.length_drop]; omega
    · intro m hm
      rcases List.mem_cons.mp hm with rfl | hm
      · exact ⟨h0, hc.max⟩
      · exact i2 m hm
    · intro m hm
      cases ns with
      | nil => simp at hm
      | cons a l =>
        rw [List.dropLast_cons_of_ne_nil (by simp)] at hm
        rcases List.mem_cons.mp hm with rfl | hm
        · rcases hc.min with q | q
          · exact q
          · have := (i2 a (by simp)).1
            rw [List.sum_cons, List.length_drop] at i1
            omega
        · exact i3 m hm

theorem chunks_split {P w mn avg mx : Nat} (A S : Bytes) (a ns : List Nat) (h : Chunks P w mn avg mx (A ++ S) (a ++ ns)) (ha : a.sum = A.length) : Chunks P w mn avg mx S ns := by
  induction a generalizing A with
  | nil =>
    have : A = [] := by simpa using ha.symm
    subst this
    simpa using h
  | cons n a ih =>
    rw [List.sum_cons] at ha
    rw [List.cons_append] at h
    generalize hG : A ++ S = G at h
    cases h with
    | cons h0 hc t =>
      subst hG
      rw [List.drop_append_of_le_length (by omega)] at t
      exact ih (A.drop n) t (by rw [List.length_drop]; omega)

/-- C164: two streams that have a boundary each, after which they go on alike, are cut alike from there on, whatever was before. -/
theorem C164_resync (P w mn avg mx : Nat) (A B S : Bytes) (a b ns ms : List Nat) (h : Chunks P w mn avg mx (A ++ S) (a ++ ns)) (h' : Chunks P w mn avg mx (B ++ S) (b ++ ms))
    (ha : a.sum = A.length) (hb : b.sum = B.length) : ns = ms :=
  C164_unique P w mn avg mx S ns ms (chunks_split A S a ns h ha) (chunks_split B S b ms h' hb)

theorem new_at {p : BitVec 64} {window : Int} {t : Table} (ht : newTable p window = .ok t) {data : Bytes} {mn avg mx : Int} {c : Ck} (hc : newChunker t data mn avg mx = .ok c)
    (ha : 0 < avg) (ha2 : avg < 2 ^ 63) :
    ∃ s, window.toNat < s ∧ Par p.toNat (bitLen p.toNat - 1) window.toNat avg.toNat c ∧ At s data c 0 ∧ window.toNat ≤ c.mn ∧ c.mn ≤ c.mx ∧ c.mn = mn.toNat ∧ c.mx = mx.toNat ∧
      0 < window ∧ window ≤ mn := by
  obtain ⟨tf, tw, tp⟩ := table_for p window t ht
  unfold newChunker at hc
  rw [tw] at hc
  by_cases c1 : window ≤ 0
  · rw [if_pos c1] at hc; exact absurd hc (by simp)
  rw [if_neg c1] at hc
  by_cases c2 : mn < window
  · rw [if_pos c2] at hc; exact absurd hc (by simp)
  rw [if_neg c2] at hc
  by_cases c3 : mx < mn
  · rw [if_pos c3] at hc; exact absurd hc (by simp)
  rw [if_neg c3] at hc
  by_cases c4 : BitVec.ofInt 64 avg &&& (BitVec.ofInt 64 avg - 1) ≠ 0
  · rw [if_pos c4] at hc; exact absurd hc (by simp)
  rw [if_neg c4] at hc
  have hc := Res.ok.inj hc
  have bb := bufLog_big window.toNat
  refine ⟨2 ^ bufLog window.toNat window.toNat 10, by omega, ?_, ?_, ?_⟩
  · subst hc
    refine ⟨tf, tp (by omega), by show t.window = _; omega, by omega, ?_⟩
    have ea : BitVec.ofInt 64 avg = BitVec.ofNat 64 avg.toNat := by
      conv => lhs; rw [show avg = (avg.toNat : Int) from by omega]
      exact BitVec.ofInt_natCast ..
    have l : avg.toNat < 2 ^ 63 := by omega
    have c4 : BitVec.ofInt 64 avg &&& (BitVec.ofInt 64 avg - 1) = 0 := by simpa using c4
    rw [ea] at c4
    have c5 := congrArg BitVec.toNat c4
    have e1 : (BitVec.ofNat 64 avg.toNat).toNat = avg.toNat := by rw [BitVec.toNat_ofNat, Nat.mod_eq_of_lt (by omega)]
    have e2 : (BitVec.ofNat 64 avg.toNat - 1).toNat = avg.toNat - 1 := by
      rw [BitVec.toNat_sub_of_le]
      · rw [e1]; rfl
      · rw [BitVec.le_def, e1]; show 1 ≤ _; omega
    rw [BitVec.toNat_and, e1, e2] at c5
    obtain ⟨k, hk⟩ := pow_two_of_and (by omega) c5
    refine ⟨k, ?_, hk, by show BitVec.ofInt 64 avg - 1 = _; rw [ea]⟩
    have : (2 : Nat) ^ k < 2 ^ 63 := by omega
    have := (Nat.pow_lt_pow_iff_right (by omega : 1 < 2)).mp this
    omega
  · subst hc
    have bl : (List.replicate (2 ^ bufLog window.toNat window.toNat 10) (0 : Byte)).length = 2 ^ bufLog window.toNat window.toNat 10 := List.length_replicate
    refine ⟨bl, .inl ⟨rfl, bl, by simp, by simp, Nat.le_refl _, by simp, ?_, rfl⟩⟩
    intro i _ hi
    exact absurd hi (Nat.not_lt_zero _)
  · subst hc
    refine ⟨?_, ?_, rfl, rfl, by omega, by omega⟩
    · show window.toNat ≤ mn.toNat; omega
    · show mn.toNat ≤ mx.toNat; omega

/-- C164: for every content, whatever sizes the reads have and whether or not the reader can skip, Next gives the lengths of the chunks of the content in their order, then
io.EOF forever. Where the smallest chunk is larger than the window it may give one empty chunk in between (`extra`; see C164_empty_violated). For readers that report the end by a
further call (`eager = false`); for the others see C164_lost_violated. -/
theorem C164_chunks_partial (p : BitVec 64) (window : Int) (t : Table) (ht : newTable p window = .ok t) (data : Bytes) (mn avg mx : Int) (c : Ck)
    (hc : newChunker t data mn avg mx = .ok c) (ha : 0 < avg) (ha2 : avg < 2 ^ 63) :
    ∃ ns, Chunks p.toNat window.toNat mn.toNat avg.toNat mx.toNat data ns ∧
      ∀ e : Env, e.eager = false → ∃ extra, (extra = [] ∨ extra = [(0, false)] ∧ window < mn) ∧
        ∀ k, nexts e (ns.length + extra.length + k) c = .ok (ns.map (·, false) ++ extra ++ List.replicate k (0, true)) := by
  obtain ⟨s, h1, h2, h3, h4, h5, h6, h7, h8, h9⟩ := new_at ht hc ha ha2
  have go : ∀ e : Env, e.eager = false → ∃ ns extra, Chunks p.toNat window.toNat mn.toNat avg.toNat mx.toNat data ns ∧ (extra = [] ∨ extra = [(0, false)] ∧ window < mn) ∧
      ∀ k, nexts e (ns.length + extra.length + k) c = .ok (ns.map (·, false) ++ extra ++ List.replicate k (0, true)) := by
    intro e he
    obtain ⟨ns, extra, r1, r2, r3⟩ := run_spec he h1 data.length h2 h4 h5 h3 (Nat.zero_le _) (Nat.le_refl _)
    rw [h6, h7, List.drop_zero] at r1
    refine ⟨ns, extra, r1, ?_, r3⟩
    rcases r2 with q | ⟨q, z⟩
    · exact .inl q
    · exact .inr ⟨q, by omega⟩
  obtain ⟨ns, _, r1, _⟩ := go ⟨fun _ => 0, false, false⟩ rfl
  refine ⟨ns, r1, ?_⟩
  intro e he
  obtain ⟨ns', extra, q1, q2, q3⟩ := go e he
  rw [← C164_unique _ _ _ _ _ _ _ _ q1 r1]
  exact ⟨extra, q2, q3⟩

/-- The chunker after `k` calls of Next. -/
def afterNexts (e : Env) : Nat → Ck → Res Ck
  | 0, c => .ok c
  | k + 1, c => (next e c).bind fun r => afterNexts e k r.2

/-- C164: Reset starts over with a new stream, from whatever point. -/
theorem C164_reset_partial (p : BitVec 64) (window : Int) (t : Table) (ht : newTable p window = .ok t) (data : Bytes) (mn avg mx : Int) (c : Ck)
    (hc : newChunker t data mn avg mx = .ok c) (ha : 0 < avg) (ha2 : avg < 2 ^ 63) (e : Env) (he : e.eager = false) (j : Nat) (data' : Bytes) :
    ∃ c1, afterNexts e j c = .ok c1 ∧ ∃ ns extra, Chunks p.toNat window.toNat mn.toNat avg.toNat mx.toNat data' ns ∧ (extra = [] ∨ extra = [(0, false)] ∧ window < mn) ∧
      ∀ k, nexts e (ns.length + extra.length + k) (resetCk c1 data') = .ok (ns.map (·, false) ++ extra ++ List.replicate k (0, true)) := by
  obtain ⟨s, h1, h2, h3, h4, h5, h6, h7, h8, h9⟩ := new_at ht hc ha ha2
  have go : ∀ (j : Nat) (c : Ck) (pos : Nat), Par p.toNat (bitLen p.toNat - 1) window.toNat avg.toNat c → window.toNat ≤ c.mn → c.mn ≤ c.mx → At s data c pos →
      ∃ c1, afterNexts e j c = .ok c1 ∧ Same c c1 ∧ c1.buf.length = s := by
    intro j
    induction j with
    | zero => intro c pos _ _ _ h; exact ⟨c, rfl, Same.refl _, h.1⟩
    | succ j ih =>
      intro c pos a1 a2 a3 a4
      obtain ⟨m, b, c', n1, n2, n3, _⟩ := next_spec he h1 a1 a2 a3 a4
      obtain ⟨c1, q1, q2, q3⟩ := ih c' _ (a1.same n2) (by rw [n2.mn]; exact a2) (by rw [n2.mn, n2.mx]; exact a3) n3
      refine ⟨c1, ?_, n2.trans q2, q3⟩
      unfold afterNexts
      rw [n1, Res.bind]
      exact q1
  obtain ⟨c1, q1, q2, q3⟩ := go j c 0 h2 h4 h5 h3
  refine ⟨c1, q1, ?_⟩
  have sm : Same c (resetCk c1 data') := q2.trans ⟨rfl, rfl, rfl, rfl⟩
  have at0 : At s data' (resetCk c1 data') 0 := by
    refine ⟨q3, .inl ⟨rfl, q3, by simp [resetCk], by simp [resetCk], Nat.le_refl _, by simp [resetCk], ?_, rfl⟩⟩
    intro i _ hi
    exact absurd hi (Nat.not_lt_zero _)
  obtain ⟨ns, extra, r1, r2, r3⟩ := run_spec he h1 data'.length (h2.same sm) (by rw [sm.mn]; exact h4) (by rw [sm.mn, sm.mx]; exact h5) at0 (Nat.zero_le _) (Nat.le_refl _)
  rw [sm.mn, sm.mx, h6, h7, List.drop_zero] at r1
  rw [sm.mn] at r2
  refine ⟨ns, extra, r1, ?_, r3⟩
  rcases r2 with q | ⟨q, z⟩
  · exact .inl q
  · exact .inr ⟨q, by omega⟩

/-- C164: NewChunker panics exactly for a table without a window, a minimum below the window, a maximum below the minimum, and an average that is not a power of two. -/
theorem C164_new (t : Table) (data : Bytes) (mn avg mx : Int) (ha : 0 < avg) (ha2 : avg < 2 ^ 63) :
    ((∃ c, newChunker t data mn avg mx = .ok c) ↔ 0 < t.window ∧ t.window ≤ mn ∧ mn ≤ mx ∧ ∃ k : Nat, avg = 2 ^ k) ∧
    (newChunker t data mn avg mx = .panic ∨ ∃ c, newChunker t data mn avg mx = .ok c) := by
  have ea : BitVec.ofInt 64 avg = BitVec.ofNat 64 avg.toNat := by
    conv => lhs; rw [show avg = (avg.toNat : Int) from by omega]
    exact BitVec.ofInt_natCast ..
  have e1 : (BitVec.ofNat 64 avg.toNat).toNat = avg.toNat := by rw [BitVec.toNat_ofNat, Nat.mod_eq_of_lt (by omega)]
  have e2 : (BitVec.ofNat 64 avg.toNat - 1).toNat = avg.toNat - 1 := by
    rw [BitVec.toNat_sub_of_le]
    · rw [e1]; rfl
    · rw [BitVec.le_def, e1]; show 1 ≤ _; omega
  have pw : BitVec.ofInt 64 avg &&& (BitVec.ofInt 64 avg - 1) = 0 ↔ ∃ k : Nat, avg = 2 ^ k := by
    rw [ea, ← BitVec.toNat_inj, BitVec.toNat_and, e1, e2]
    constructor
    · intro h
      obtain ⟨k, hk⟩ := pow_two_of_and (by omega) h
      refine ⟨k, ?_⟩
      have : ((2 ^ k : Nat) : Int) = 2 ^ k := by push_cast; rfl
      omega
    · rintro ⟨k, hk⟩
      have : avg.toNat = 2 ^ k := by
        have : ((2 ^ k : Nat) : Int) = 2 ^ k := by push_cast; rfl
        omega
      rw [this, Nat.and_two_pow_sub_one_eq_mod, Nat.mod_self]; rfl
  unfold newChunker
  by_cases c1 : t.window ≤ 0
  · rw [if_pos c1]; exact ⟨⟨by rintro ⟨c, h⟩; exact absurd h (by simp), by rintro ⟨a, _⟩; omega⟩, .inl rfl⟩
  rw [if_neg c1]
  by_cases c2 : mn < t.window
  · rw [if_pos c2]; exact ⟨⟨by rintro ⟨c, h⟩; exact absurd h (by simp), by rintro ⟨_, a, _⟩; omega⟩, .inl rfl⟩
  rw [if_neg c2]
  by_cases c3 : mx < mn
  · rw [if_pos c3]; exact ⟨⟨by rintro ⟨c, h⟩; exact absurd h (by simp), by rintro ⟨_, _, a, _⟩; omega⟩, .inl rfl⟩
  rw [if_neg c3]
  by_cases c4 : BitVec.ofInt 64 avg &&& (BitVec.ofInt 64 avg - 1) = 0
  · rw [if_neg (by simpa using c4)]
    exact ⟨⟨fun _ => ⟨by omega, by omega, by omega, pw.mp c4⟩, fun _ => ⟨_, rfl⟩⟩, .inr ⟨_, rfl⟩⟩
  · rw [if_pos c4]
    exact ⟨⟨by rintro ⟨c, h⟩; exact absurd h (by simp), by rintro ⟨_, _, _, a⟩; exact absurd (pw.mpr a) c4⟩, .inl rfl⟩

/-- The results of `k` calls of Next of a new chunker. -/
def results (p : BitVec 64) (window : Int) (data : Bytes) (mn avg mx : Int) (e : Env) (k : Nat) : Res (List (Nat × Bool)) :=
  (newTable p window).bind fun t => (newChunker t data mn avg mx).bind fun c => nexts e k c

/-- C164, fails: a reader that returns the last bytes together with io.EOF, as io.Reader allows, loses data: of three bytes, to be cut into three chunks, the last two are never
given out (hash/rabin/chunker.go:113-115, 257-263). -/
theorem C164_lost_violated : results 0x11d 1 [1, 2, 3] 1 1 2 ⟨fun _ => 100, true, false⟩ 2 = .ok [(1, false), (0, true)] ∧
    results 0x11d 1 [1, 2, 3] 1 1 2 ⟨fun _ => 100, false, false⟩ 4 = .ok [(1, false), (1, false), (1, false), (0, true)] := by decide +kernel

/-- C164, fails: "when there is no more data, returns io.EOF": after the last chunk, or for an empty stream, Next may give an empty chunk without an error first
(hash/rabin/chunker.go:126-130). -/
theorem C164_empty_violated : results 0x11d 1 [] 2 1 2 ⟨fun _ => 100, false, false⟩ 2 = .ok [(0, false), (0, true)] ∧
    results 0x11d 1 [1, 2] 2 1 2 ⟨fun _ => 100, false, false⟩ 3 = .ok [(2, false), (0, false), (0, true)] := by decide +kernel

-- A cut in the content: with windows of two bytes and avg = 4 a chunk ends where the fingerprint is 3 modulo 4; one byte at a time, all at once and with Discard.
example : results 0x11d 2 [9, 0, 3, 7, 0, 0, 0, 7, 1] 2 4 5 ⟨fun _ => 0, false, false⟩ 5 = .ok [(3, false), (2, false), (3, false), (1, false), (0, true)] := by decide +kernel
example : results 0x11d 2 [9, 0, 3, 7, 0, 0, 0, 7, 1] 2 4 5 ⟨fun _ => 100, false, false⟩ 5 = .ok [(3, false), (2, false), (3, false), (1, false), (0, true)] := by decide +kernel

end Verif.Rabin
