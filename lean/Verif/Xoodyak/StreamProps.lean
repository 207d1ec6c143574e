import Verif.Xoodyak.StreamLemmas
/-!
# C150: the Xoodyak encrypting writer and decrypting reader
-/
namespace Verif.Xoodyak
open Verif Mode

/-- C150: whatever the calls of `Write`, after `Close` the underlying writer has been given the published ciphertext and tag of all that was
written, and nothing else; a second `Close` is an error. -/
theorem C150_encrypt_stream (K N A : Bytes) (hK : K.length = 16) (hN : N.length = 16) (ps : List Bytes) :
    ∃ e e', newEs K N A = .ok e ∧ esClose (ps.foldl esWrite e) = .ok e' ∧
      e'.out = (Spec.aead K N A ps.flatten).1 ++ (Spec.aead K N A ps.flatten).2 ∧ esClose e' = .err := by
  have hk : K ≠ [] := by intro h; rw [h] at hK; simp at hK
  have hnew : newEs K N A = .ok ⟨absorb (xKeyed K N []) A, [], 0x80, false, []⟩ := by
    unfold newEs
    rw [if_neg (by omega), if_neg (by omega), instantiate_keyed K N [] hk (by omega)]
    rfl
  have inv : ∀ (ps : List Bytes) (P : Bytes) (e : Es), EsInv (absorb (xKeyed K N []) A) P e →
      EsInv (absorb (xKeyed K N []) A) (P ++ ps.flatten) (ps.foldl esWrite e) := by
    intro ps
    induction ps with
    | nil => intro P e h; simpa using h
    | cons p ps ih =>
      intro P e h
      rw [List.foldl_cons, List.flatten_cons, ← List.append_assoc]
      exact ih _ _ (esWrite_inv _ p P e h)
  have h0 : EsInv (absorb (xKeyed K N []) A) [] ⟨absorb (xKeyed K N []) A, [], 0x80, false, []⟩ :=
    ⟨rfl, by show 0 < 24; omega, [], by simp, rfl, fun Cs => rfl⟩
  obtain ⟨e', h1, h2, h3⟩ := esClose_out _ _ _ (inv ps [] _ h0)
  refine ⟨_, e', hnew, h1, ?_, ?_⟩
  · rw [h3, List.nil_append, blk_aead K N A _ hK hN]
  · unfold esClose; rw [if_pos h2]

/-- What reads with buffers of the given sizes have to return for a plaintext and a verdict on the tag: full buffers as long as plaintext is
left after them, then the rest of it with the verdict, then the end of file. -/
def specReads (P : Bytes) (v : DErr) : List Nat → List (Bytes × DErr)
  | [] => []
  | n :: ns => if n < P.length then (P.take n, .nil) :: specReads (P.drop n) v ns else (P, v) :: ns.map fun _ => ([], .eof)

theorem idle_loop (t v : Bytes) (ht : t.length = 16) (n : Nat) (hn : 0 < n) : ∀ (m : Nat) (P : Bytes) (d : Ds) (r : Nat) (out : Bytes) (fuel : Nat),
    P.length ≤ m → P.length < fuel → Idle P t v d →
    (r < P.length ∧ ∃ d' pend P', readLoop fuel n d r out = some (d', out ++ P.take r, .nil) ∧ Pend pend P' t v d' ∧ P.drop r = pend ++ P') ∨
    (P.length ≤ r ∧ ∃ d', readLoop fuel n d r out = some (d', out ++ P, verdict t v) ∧ Fin d') := by
  intro m
  induction m with
  | zero =>
    intro P d r out fuel hm hf h
    have : P = [] := List.length_eq_zero_iff.mp (by omega)
    subst this
    obtain ⟨k, rfl⟩ : ∃ k, fuel = k + 1 := ⟨fuel - 1, by simp at hf; omega⟩
    obtain ⟨d', h1, h2⟩ := turn_idle_nil t v ht n d r out h
    exact Or.inr ⟨by simp, d', by unfold readLoop; rw [h1, List.append_nil], h2⟩
  | succ m ih =>
    intro P d r out fuel hm hf h
    obtain ⟨k, rfl⟩ : ∃ k, fuel = k + 1 := ⟨fuel - 1, by omega⟩
    by_cases hP : P = []
    · subst hP
      obtain ⟨d', h1, h2⟩ := turn_idle_nil t v ht n d r out h
      exact Or.inr ⟨by simp, d', by unfold readLoop; rw [h1, List.append_nil], h2⟩
    · have hp : 0 < P.length := List.length_pos_iff.mpr hP
      obtain ⟨d1, g1, g2⟩ := turn_idle_cons P t v ht hP n (by omega) d r out h
      have hl : (P.take 24).length = min 24 P.length := List.length_take
      rcases tail_pend t v ht n hn _ _ d1 r out g2 with ⟨hr, d', t1, t2⟩ | ⟨hr, hd, d', t1, t2⟩ | ⟨hr, d', t1, t2⟩
      · left
        refine ⟨by omega, d', _, _, ?_, t2, ?_⟩
        · unfold readLoop
          rw [g1, t1, List.take_take, Nat.min_eq_left (by omega)]
        · conv => lhs; rw [← List.take_append_drop 24 P]
          rw [List.drop_append_of_le_length (by omega)]
      · right
        have e : P.take 24 = P := by
          have := List.take_append_drop 24 P
          rw [hd, List.append_nil] at this
          exact this
        rw [e] at t1 hr
        exact ⟨hr, d', by unfold readLoop; rw [g1, t1], t2⟩
      · have hdl : (P.drop 24).length = P.length - 24 := List.length_drop
        rcases ih (P.drop 24) d' (r - (P.take 24).length) (out ++ P.take 24) k (by omega) (by omega) t2 with ⟨q1, d2, pe, P', q2, q3, q4⟩ | ⟨q1, d2, q2, q3⟩
        · left
          refine ⟨by omega, d2, pe, P', ?_, q3, ?_⟩
          · unfold readLoop
            rw [g1, t1]
            simp only []
            rw [q2, List.append_assoc]
            congr 3
            have : P.take r = P.take (24 + (r - 24)) := by congr 1; omega
            have e24 : (P.take 24).length = 24 := by omega
            rw [this, List.take_add, e24]
          · rw [← q4, List.drop_drop]
            congr 1
            omega
        · right
          refine ⟨by omega, d2, ?_, q3⟩
          unfold readLoop
          rw [g1, t1]
          simp only []
          rw [q2, List.append_assoc, List.take_append_drop]

theorem pend_loop (t v : Bytes) (ht : t.length = 16) (n : Nat) (hn : 0 < n) (pend P : Bytes) (d : Ds) (r : Nat) (fuel : Nat)
    (hf : P.length + 1 < fuel) (h : Pend pend P t v d) :
    (r < (pend ++ P).length ∧ ∃ d' pend' P', readLoop fuel n d r [] = some (d', (pend ++ P).take r, .nil) ∧ Pend pend' P' t v d' ∧ (pend ++ P).drop r = pend' ++ P') ∨
    ((pend ++ P).length ≤ r ∧ ∃ d', readLoop fuel n d r [] = some (d', pend ++ P, verdict t v) ∧ Fin d') := by
  obtain ⟨k, rfl⟩ : ∃ k, fuel = k + 1 := ⟨fuel - 1, by omega⟩
  have hp : 0 < pend.length := List.length_pos_iff.mpr h.pos
  have htn : turn n d r [] = tailTurn n d r [] := by
    unfold turn
    rw [if_neg (by rw [h.pt]; omega)]
  rcases tail_pend t v ht n hn _ _ d r [] h with ⟨hr, d', t1, t2⟩ | ⟨hr, hd, d', t1, t2⟩ | ⟨hr, d', t1, t2⟩
  · left
    refine ⟨by rw [List.length_append]; omega, d', pend.drop r, P, ?_, t2, ?_⟩
    · unfold readLoop
      rw [htn, t1, List.take_append_of_le_length (by omega)]; rfl
    · rw [List.drop_append_of_le_length (by omega)]
  · right
    subst hd
    rw [List.append_nil]
    exact ⟨hr, d', by unfold readLoop; rw [htn, t1]; rfl, t2⟩
  · rcases idle_loop t v ht n hn P.length P d' (r - pend.length) ([] ++ pend) k (Nat.le_refl _) (by omega) t2 with ⟨q1, d2, pe, P', q2, q3, q4⟩ | ⟨q1, d2, q2, q3⟩
    · left
      refine ⟨by rw [List.length_append]; omega, d2, pe, P', ?_, q3, ?_⟩
      · unfold readLoop
        rw [htn, t1]
        simp only []
        rw [q2, List.nil_append]
        congr 3
        have : r = pend.length + (r - pend.length) := by omega
        conv => rhs; rw [this]
        rw [List.take_length_add_append]
      · have : r = pend.length + (r - pend.length) := by omega
        rw [this, List.drop_length_add_append]
        exact q4
    · right
      refine ⟨by rw [List.length_append]; omega, d2, ?_, q3⟩
      unfold readLoop
      rw [htn, t1]
      simp only []
      rw [q2]; rfl

theorem fin_reads (fuel : Nat) (d : Ds) (h : Fin d) : ∀ ns : List Nat, readAll fuel ns d = some (ns.map fun _ => ([], .eof))
  | [] => rfl
  | n :: ns => by
    have h' : d.complete = true ∧ d.nx = 0 := h
    unfold readAll read
    rw [if_pos h']
    simp only []
    rw [fin_reads fuel d h ns]
    rfl

theorem pend_reads (t v : Bytes) (ht : t.length = 16) (fuel : Nat) : ∀ (ns : List Nat) (pend P : Bytes) (d : Ds), (∀ n ∈ ns, 0 < n) → pend.length + P.length < fuel →
    Pend pend P t v d → readAll fuel ns d = some (specReads (pend ++ P) (verdict t v) ns)
  | [], _, _, _, _, _, _ => rfl
  | n :: ns, pend, P, d, hn, hf, h => by
    have hnf : ¬ (d.complete = true ∧ d.nx = 0) := by rw [h.nx]; omega
    unfold readAll read
    rw [if_neg hnf]
    have hp0 : 0 < pend.length := List.length_pos_iff.mpr h.pos
    rcases pend_loop t v ht n (hn n (by simp)) pend P d n fuel (by omega) h with ⟨q1, d', pe, P', q2, q3, q4⟩ | ⟨q1, d', q2, q3⟩
    · rw [q2]
      simp only []
      have hlen := congrArg List.length q4
      have hpe : 0 < pe.length := List.length_pos_iff.mpr q3.pos
      rw [List.length_drop, List.length_append, List.length_append] at hlen
      have h24 := h.pl
      have hn0 := hn n (by simp)
      rw [pend_reads t v ht fuel ns pe P' d' (fun m hm => hn m (by simp [hm])) (by omega) q3]
      simp only [specReads, q1, if_true, Option.map_some, q4]
    · rw [q2]
      simp only []
      rw [fin_reads fuel d' q3 ns]
      simp only [specReads, Nat.not_lt.mpr q1, if_false, Option.map_some]

theorem new_idle (K N A P t : Bytes) (s : Src) (hK : K.length = 16) (hN : N.length = 16)
    (hs : s.rest = (Spec.aead K N A P).1 ++ t) (hf : ∀ e ∈ s.sched, e ≠ none) :
    ∃ d, newDs s K N A = .ok d ∧ Idle P t (Spec.aead K N A P).2 d := by
  have hk : K ≠ [] := by intro h; rw [h] at hK; simp at hK
  refine ⟨⟨s, absorb (xKeyed K N []) A, List.replicate 40 0, 0, 0, 0x80, false⟩, ?_, rfl, rfl, rfl, by show 0 ≤ 16; omega, hf, ?_, ?_⟩
  · unfold newDs
    rw [if_neg (by omega), if_neg (by omega), instantiate_keyed K N [] hk (by omega)]
    rfl
  · rw [blk_aead K N A P hK hN]; exact hs
  · rw [blk_aead K N A P hK hN]

/-- C150 (part: at least 16 bytes in the stream, non-empty buffers, an underlying reader that does not fail): over a stream that is the
published ciphertext of `P` followed by a tag `t`, given in pieces of any sizes and with its end announced early or late, reads with buffers of
any sizes return `P` in order, in full buffers while more is left, the last of them with no error if `t` is the tag of `P` and with the
authentication error if not, and the end of file from then on; every read ends. -/
theorem C150_decrypt_stream_partial (K N A P t : Bytes) (s : Src) (hK : K.length = 16) (hN : N.length = 16) (ht : t.length = 16)
    (hs : s.rest = (Spec.aead K N A P).1 ++ t) (hf : ∀ e ∈ s.sched, e ≠ none) (ns : List Nat) (hn : ∀ n ∈ ns, 0 < n) (fuel : Nat)
    (hfu : P.length + 2 ≤ fuel) :
    ∃ d, newDs s K N A = .ok d ∧
      readAll fuel ns d = some (specReads P (if (Spec.aead K N A P).2 = t then .nil else .auth) ns) := by
  obtain ⟨d, h1, h2⟩ := new_idle K N A P t s hK hN hs hf
  refine ⟨d, h1, ?_⟩
  match ns, hn with
  | [], _ => rfl
  | n :: ns, hn =>
    have hnf : ¬ (d.complete = true ∧ d.nx = 0) := by rw [h2.nf]; simp
    unfold readAll read
    rw [if_neg hnf]
    have hn0 := hn n (by simp)
    rcases idle_loop t _ ht n hn0 P.length P d n [] fuel (Nat.le_refl _) (by omega) h2 with ⟨q1, d', pe, P', q2, q3, q4⟩ | ⟨q1, d', q2, q3⟩
    · rw [q2]
      simp only []
      have hlen := congrArg List.length q4
      rw [List.length_drop, List.length_append] at hlen
      have hpe : 0 < pe.length := List.length_pos_iff.mpr q3.pos
      rw [pend_reads t _ ht fuel ns pe P' d' (fun m hm => hn m (by simp [hm])) (by omega) q3]
      simp only [specReads, q1, if_true, Option.map_some, q4, verdict, List.nil_append]
    · rw [q2]
      simp only []
      rw [fin_reads fuel d' q3 ns]
      simp only [specReads, Nat.not_lt.mpr q1, if_false, Option.map_some, verdict, List.nil_append]

/-- C150: every stream of at least 16 bytes is of that form, for one plaintext. -/
theorem C150_streams (K N A C : Bytes) (h : 16 ≤ C.length) :
    ∃ P t, t.length = 16 ∧ C = (Spec.aead K N A P).1 ++ t := by
  have e := (dec_iff (C.take (C.length - 16)) K N A _ _).mp ⟨rfl, rfl⟩
  refine ⟨(Spec.crypt (adState K N A) (C.take (C.length - 16)) true).2, C.drop (C.length - 16), by rw [List.length_drop]; omega, ?_⟩
  rw [e]
  exact (List.take_append_drop _ _).symm

/-- C150: a first read with an empty buffer reads all, gives no plaintext, and returns the verdict on the tag. -/
theorem C150_authenticate_only (K N A P t : Bytes) (s : Src) (hK : K.length = 16) (hN : N.length = 16) (ht : t.length = 16)
    (hs : s.rest = (Spec.aead K N A P).1 ++ t) (hf : ∀ e ∈ s.sched, e ≠ none) (fuel : Nat) (hfu : P.length < fuel) :
    ∃ d d', newDs s K N A = .ok d ∧ read fuel 0 d = some (d', [], if (Spec.aead K N A P).2 = t then .nil else .auth) := by
  obtain ⟨d, h1, h2⟩ := new_idle K N A P t s hK hN hs hf
  have loop : ∀ (m : Nat) (P : Bytes) (d : Ds) (v : Bytes) (fuel : Nat), P.length ≤ m → P.length < fuel → Idle P t v d →
      ∃ d', readLoop fuel 0 d 0 [] = some (d', [], verdict t v) := by
    intro m
    induction m with
    | zero =>
      intro P d v fuel hm hf h
      have : P = [] := List.length_eq_zero_iff.mp (by omega)
      subst this
      obtain ⟨k, rfl⟩ : ∃ k, fuel = k + 1 := ⟨fuel - 1, by simp at hf; omega⟩
      obtain ⟨d', q1, _⟩ := turn_idle_nil t v ht 0 d 0 [] h
      exact ⟨d', by unfold readLoop; rw [q1]⟩
    | succ m ih =>
      intro P d v fuel hm hf h
      obtain ⟨k, rfl⟩ : ∃ k, fuel = k + 1 := ⟨fuel - 1, by omega⟩
      by_cases hP : P = []
      · subst hP
        obtain ⟨d', q1, _⟩ := turn_idle_nil t v ht 0 d 0 [] h
        exact ⟨d', by unfold readLoop; rw [q1]⟩
      · have hp : 0 < P.length := List.length_pos_iff.mpr hP
        rcases turn_idle_zero P t v ht hP d h with ⟨d', q1, _⟩ | ⟨d', q1, q2⟩
        · exact ⟨d', by unfold readLoop; rw [q1]⟩
        · obtain ⟨d2, q3⟩ := ih (P.drop 24) d' v k (by rw [List.length_drop]; omega) (by rw [List.length_drop]; omega) q2
          exact ⟨d2, by unfold readLoop; rw [q1]; exact q3⟩
  obtain ⟨d', q⟩ := loop P.length P d _ fuel (Nat.le_refl _) hfu h2
  refine ⟨d, d', h1, ?_⟩
  unfold read
  rw [if_neg (by rw [h2.nf]; simp)]
  exact q

/-- C150: both constructors want a key and a nonce of 16 bytes, and give an error for anything else. -/
theorem C150_lengths (K N A : Bytes) (s : Src) (h : K.length ≠ 16 ∨ N.length ≠ 16) : newEs K N A = .err ∧ newDs s K N A = .err := by
  unfold newEs newDs
  by_cases hK : K.length = 16
  · have hN : N.length ≠ 16 := by rcases h with h | h; exact absurd hK h; exact h
    rw [if_neg (by omega), if_pos hN, if_neg (by omega), if_pos hN]
    exact ⟨rfl, rfl⟩
  · rw [if_pos hK, if_pos hK]
    exact ⟨rfl, rfl⟩

/-- C150: what the writer puts out, the reader accepts and gives back. -/
theorem C150_round_trip (K N A : Bytes) (hK : K.length = 16) (hN : N.length = 16) (ps : List Bytes) (sched : List (Option Nat)) (eager : Bool)
    (hf : ∀ e ∈ sched, e ≠ none) (ns : List Nat) (hn : ∀ n ∈ ns, 0 < n) (fuel : Nat) (hfu : ps.flatten.length + 2 ≤ fuel) :
    ∃ e e' d, newEs K N A = .ok e ∧ esClose (ps.foldl esWrite e) = .ok e' ∧ newDs ⟨e'.out, sched, eager⟩ K N A = .ok d ∧
      readAll fuel ns d = some (specReads ps.flatten .nil ns) := by
  obtain ⟨e, e', h1, h2, h3, _⟩ := C150_encrypt_stream K N A hK hN ps
  obtain ⟨d, h4, h5⟩ := C150_decrypt_stream_partial K N A ps.flatten _ ⟨e'.out, sched, eager⟩ hK hN (aead_lens K N A _).2 h3 hf ns hn fuel hfu
  rw [if_pos rfl] at h5
  exact ⟨e, e', d, h1, h2, h4, h5⟩

/-- C150 violated: a read with an empty buffer, after a read that left plaintext waiting, never ends, for any number of turns.
A message of two bytes, read one byte first. -/
theorem C150_empty_read_hangs_violated :
    ∃ (K N A : Bytes) (s : Src) (d d' : Ds) (o : Bytes), newDs s K N A = .ok d ∧ read 4 1 d = some (d', o, .nil) ∧ ∀ fuel, read fuel 0 d' = none := by
  have hl : (Spec.aead (List.replicate 16 0) (List.replicate 16 0) [] [1, 2]).2.length = 16 := (aead_lens _ _ _ _).2
  obtain ⟨d, h1, h2⟩ := new_idle (List.replicate 16 0) (List.replicate 16 0) [] [1, 2] _
    ⟨(Spec.aead (List.replicate 16 0) (List.replicate 16 0) [] [1, 2]).1 ++ (Spec.aead (List.replicate 16 0) (List.replicate 16 0) [] [1, 2]).2, [], false⟩
    rfl rfl rfl (by simp)
  rcases idle_loop _ _ hl 1 (by omega) 2 [1, 2] d 1 [] 4 (by simp) (by simp) h2 with ⟨_, d', pe, P', q2, q3, _⟩ | ⟨q1, _⟩
  · refine ⟨_, _, _, _, d, d', [] ++ [1, 2].take 1, h1, ?_, ?_⟩
    · unfold read
      rw [if_neg (by rw [h2.nf]; simp)]
      exact q2
    · intro fuel
      unfold read
      rw [if_neg (by rw [q3.nx]; simp)]
      have hpe : 0 < pe.length := List.length_pos_iff.mpr q3.pos
      have same : turn 0 d' 0 [] = .again d' 0 [] := by
        unfold turn
        rw [if_neg (by rw [q3.pt]; omega)]
        unfold tailTurn
        simp only [gt_iff_lt, Nat.lt_irrefl, and_false, if_false, Nat.sub_zero, List.take_zero, List.append_nil,
          List.drop_zero, List.drop_length]
        rw [if_neg (by rw [q3.pt]; omega), if_neg (by rw [q3.nx]; simp)]
      induction fuel with
      | zero => rfl
      | succ k ih => unfold readLoop; rw [same]; exact ih
  · exact absurd q1 (by simp)

/-- The empty message under this key and nonce has a tag that ends in zero; this is the rest of it. -/
def shortK : Bytes := (List.range 16).map (BitVec.ofNat 8)
def shortN : Bytes := (List.range 14).map (BitVec.ofNat 8) ++ [73, 1]
def shortTag : Bytes := [0x67, 0xe7, 0x09, 0x7c, 0x85, 0xe3, 0x17, 0x27, 0x66, 0xe5, 0x4b, 0xc2, 0x5e, 0x20, 0x27]

/-- C150 violated: a stream of 15 bytes is accepted: the buffer the tag is compared with starts out as zeros, so a tag that ends in a zero
byte may be cut by that byte. -/
theorem C150_short_tag_violated :
    ∃ (K N A : Bytes) (s : Src) (d d' : Ds), s.rest.length = 15 ∧ newDs s K N A = .ok d ∧ read 2 16 d = some (d', [], .nil) := by
  have e : (match newDs ⟨shortTag, [], false⟩ shortK shortN [] with
      | .ok d => (match read 2 16 d with | some (_, [], .nil) => true | _ => false)
      | _ => false) = true := by decide +kernel
  cases hd : newDs ⟨shortTag, [], false⟩ shortK shortN [] with
  | ok d =>
    rw [hd] at e
    simp only [] at e
    match hr : read 2 16 d, e with
    | some (d', [], .nil), _ => exact ⟨shortK, shortN, [], ⟨shortTag, [], false⟩, d, d', rfl, hd, hr⟩
    | none, e => exact absurd e (by simp)
    | some (_, _ :: _, _), e => exact absurd e (by simp)
    | some (_, [], .eof), e => exact absurd e (by simp)
    | some (_, [], .auth), e => exact absurd e (by simp)
    | some (_, [], .read), e => exact absurd e (by simp)
  | err => rw [hd] at e; exact absurd e (by simp)
  | panic => rw [hd] at e; exact absurd e (by simp)
  | hang => rw [hd] at e; exact absurd e (by simp)

/-- Non-vacuity: reads of 5, 20 and 7 bytes of a message of 30 bytes. -/
example : specReads (List.replicate 30 7) .nil [5, 20, 7, 1] =
    [(List.replicate 5 7, .nil), (List.replicate 20 7, .nil), (List.replicate 5 7, .nil), ([], .eof)] := by decide

end Verif.Xoodyak
