import Verif.Pub.LmsProps
/-
C107: HSS, the hierarchical signatures of pubkey/lms/hss.go.
-/
namespace Verif.Pub.Lms
open Verif.Cipher Verif.Kdf

/-- Parameters that are registered and go together; nonces have 32 bytes in `GenerateHSSKey`. -/
structure Spec.IsOpt (reg : Reg) (p : LmsParam) (o : OtsParam) : Prop where
  lms : Spec.IsLms p o
  ots : reg.ots o.typ = some o
  typ : reg.lms p.typ = some p
  size : o.N = 32

/-- What a valid HSS signature is: each level's signature of the digest of the next public key, then the signature of the
message, one after the other. -/
inductive Spec.HssValid (reg : Reg) (msg : Bytes) : Nat → LmsPub → Bytes → Prop
  | last (pub : LmsPub) (s : LmsSig) : Spec.LmsShape s → reg.ots s.ots.p.typ = some s.ots.p → reg.lms s.p.typ = some s.p →
      lmsVerify pub msg s = .ok true → Spec.HssValid reg msg 0 pub (lmsSigBytes s)
  | level (n : Nat) (pub next : LmsPub) (s : LmsSig) (rest : Bytes) : Spec.LmsShape s → reg.ots s.ots.p.typ = some s.ots.p → reg.lms s.p.typ = some s.p →
      reg.lms next.p.typ = some next.p → reg.ots next.o.typ = some next.o → next.id.length = 16 → next.k.length = next.p.M → next.p.M = next.o.N →
      lmsVerify pub (pub.o.H.f (pub.id ++ hx 4 s.q ++ [0x81, 0x81] ++ s.ots.c ++ lmsPubBytes next)) s = .ok true →
      Spec.HssValid reg msg n next rest → Spec.HssValid reg msg (n + 1) pub (lmsSigBytes s ++ (lmsPubBytes next ++ rest))

theorem splitSig_bytes (reg : Reg) (hreg : Spec.IsLmsReg reg) (s : LmsSig) (hs : Spec.LmsShape s) (hro : reg.ots s.ots.p.typ = some s.ots.p) (hrl : reg.lms s.p.typ = some s.p) (rest : Bytes) :
    hssSplitSig reg (lmsSigBytes s ++ rest) = .ok (s, rest) := by
  obtain ⟨-, hot⟩ := hreg.1 _ _ hro
  obtain ⟨-, ht, hh⟩ := hreg.2 _ _ hrl
  have hlen := lmsSigBytes_length s hot hs
  have hsl := hot.len
  have hparse := parseLmsSig_bytes reg s hot hro hrl ht hh hs
  have hL : s.p.sigLength s.ots.p = 8 + s.ots.p.sigLength + s.p.h * s.p.M := by rw [LmsParam.sigLength]
  have he := lmsSigBytes_eq s hs
  have hol := otsSigBytes_length _ hot hs.ots
  have e2 : ((lmsSigBytes s ++ rest).drop 4).take 4 = hx 4 s.ots.p.typ := by
    rw [he, List.append_assoc, List.drop_left' (hx_length 4 _), otsSigBytes]
    simp only [List.append_assoc]
    rw [List.take_left' (hx_length 4 _)]
  have e3 : ((lmsSigBytes s ++ rest).drop (4 + s.ots.p.sigLength)).take 4 = hx 4 s.p.typ := by
    rw [he, ← List.drop_drop, List.append_assoc, List.drop_left' (hx_length 4 _), List.append_assoc, List.drop_left' hol, List.append_assoc, List.take_left' (hx_length 4 _)]
  have hl2 : (lmsSigBytes s ++ rest).length = s.p.sigLength s.ots.p + rest.length := by rw [List.length_append, hlen]
  rw [hssSplitSig, if_neg (by omega), e2, setBytes_hx _ _ hot.typ, hro]
  simp only
  rw [if_neg (by omega), if_neg (by omega), e3, setBytes_hx _ _ ht, hrl]
  simp only
  rw [if_neg (by omega), List.take_left' hlen, hparse, List.drop_left' hlen]
  rfl

theorem splitSig_ok (reg : Reg) (hreg : Spec.IsLmsReg reg) (b : Bytes) (s : LmsSig) (rest : Bytes) (h : hssSplitSig reg b = .ok (s, rest)) :
    Spec.LmsShape s ∧ reg.ots s.ots.p.typ = some s.ots.p ∧ reg.lms s.p.typ = some s.p ∧ b = lmsSigBytes s ++ rest := by
  rw [hssSplitSig] at h
  by_cases h8 : b.length < 8
  · rw [if_pos h8] at h; cases h
  rw [if_neg h8] at h
  simp only at h
  cases ho : reg.ots (setBytes ((b.drop 4).take 4)) with
  | none => rw [ho] at h; cases h
  | some o =>
    rw [ho] at h
    simp only at h
    split at h
    · cases h
    split at h
    · cases h
    cases hl : reg.lms (setBytes ((b.drop (4 + o.sigLength)).take 4)) with
    | none => rw [hl] at h; cases h
    | some p =>
      rw [hl] at h
      simp only at h
      split at h
      · cases h
      rcases C104_bytes_partial reg hreg (b.take (p.sigLength o)) with ⟨he, -⟩ | ⟨he, -⟩ | ⟨s', he, hs, hro, hrl, hb⟩
      · rw [he] at h; cases h
      · rw [he] at h; cases h
      · rw [he] at h
        cases h
        exact ⟨hs, hro, hrl, by rw [hb, List.take_append_drop]⟩

theorem splitPub_bytes (reg : Reg) (hreg : Spec.IsLmsReg reg) (pub : LmsPub) (hl : reg.lms pub.p.typ = some pub.p) (ho : reg.ots pub.o.typ = some pub.o) (hid : pub.id.length = 16)
    (hk : pub.k.length = pub.p.M) (hM : pub.p.M = pub.o.N) (rest : Bytes) : hssSplitPub reg (lmsPubBytes pub ++ rest) = .ok (pub, rest) := by
  obtain ⟨-, hot⟩ := hreg.1 _ _ ho
  obtain ⟨-, ht, hh⟩ := hreg.2 _ _ hl
  have hlen : (lmsPubBytes pub).length = 24 + pub.o.H.size := by simp [lmsPubBytes, hid, hk]; have := hot.size; omega
  have hp := (C104_pub_bytes reg hreg (lmsPubBytes pub) pub).mpr ⟨hl, ho, hid, hk, rfl⟩
  have e1 : (lmsPubBytes pub ++ rest).take 4 = hx 4 pub.p.typ := by
    simp only [lmsPubBytes, List.append_assoc]; rw [List.take_left' (hx_length 4 _)]
  have e2 : ((lmsPubBytes pub ++ rest).drop 4).take 4 = hx 4 pub.o.typ := by
    simp only [lmsPubBytes, List.append_assoc]; rw [List.drop_left' (hx_length 4 _), List.take_left' (hx_length 4 _)]
  have hl2 : (lmsPubBytes pub ++ rest).length = 24 + pub.o.H.size + rest.length := by rw [List.length_append, hlen]
  rw [hssSplitPub, if_neg (by omega), e1, setBytes_hx _ _ ht, hl]
  simp only
  rw [e2, setBytes_hx _ _ hot.typ, ho]
  simp only
  rw [if_neg (by omega), List.take_left' hlen, hp, List.drop_left' hlen]
  rfl

theorem splitPub_ok (reg : Reg) (hreg : Spec.IsLmsReg reg) (b : Bytes) (pub : LmsPub) (rest : Bytes) (h : hssSplitPub reg b = .ok (pub, rest)) :
    reg.lms pub.p.typ = some pub.p ∧ reg.ots pub.o.typ = some pub.o ∧ pub.id.length = 16 ∧ pub.k.length = pub.p.M ∧ pub.p.M = pub.o.N ∧ b = lmsPubBytes pub ++ rest := by
  rw [hssSplitPub] at h
  by_cases h8 : b.length < 8
  · rw [if_pos h8] at h; cases h
  rw [if_neg h8] at h
  cases hl : reg.lms (setBytes (b.take 4)) with
  | none => rw [hl] at h; cases h
  | some p =>
    rw [hl] at h
    simp only at h
    cases ho : reg.ots (setBytes ((b.drop 4).take 4)) with
    | none => rw [ho] at h; cases h
    | some o =>
      rw [ho] at h
      simp only at h
      split at h
      · cases h
      rename_i hlen
      cases hp : parseLmsPub reg (b.take (24 + o.H.size)) with
      | err => rw [hp] at h; cases h
      | panic => rw [hp] at h; cases h
      | hang => rw [hp] at h; cases h
      | ok pub' =>
        rw [hp] at h
        cases h
        obtain ⟨h1, h2, h3, h4, h5⟩ := (C104_pub_bytes reg hreg _ _).mp hp
        refine ⟨h1, h2, h3, h4, ?_, by rw [h5, List.take_append_drop]⟩
        have hlen5 := congrArg List.length h5
        rw [List.length_take, Nat.min_eq_left (by omega)] at hlen5
        simp only [lmsPubBytes, List.length_append, hx_length, h3, h4] at hlen5
        have ho' : pub.o = o := by
          have e : ((b.take (24 + o.H.size)).drop 4).take 4 = (b.drop 4).take 4 := by
            rw [List.drop_take, List.take_take, Nat.min_eq_left (by omega)]
          rw [← h5] at e
          simp only [lmsPubBytes, List.append_assoc] at e
          rw [List.drop_left' (hx_length 4 _), List.take_left' (hx_length 4 _)] at e
          rw [← e, setBytes_hx _ _ (hreg.1 _ _ h2).2.typ, h2] at ho
          exact Option.some.inj ho
        have := (hreg.1 _ _ h2).2.size
        rw [ho'] at this ⊢
        omega

/-- C107. `Verify` answers true exactly on the valid signatures: for every public key, message and byte string, whatever the
number of levels. -/
theorem C107_verify (reg : Reg) (hreg : Spec.IsLmsReg reg) (pub : HssPub) (hlev : 1 ≤ pub.levels ∧ pub.levels < 2 ^ 32) (msg b : Bytes) :
    hssVerify reg pub msg b = .ok true ↔ ∃ rest, b = hx 4 (pub.levels.toNat - 1) ++ rest ∧ Spec.HssValid reg msg (pub.levels.toNat - 1) pub.pub rest := by
  have hloop : ∀ (n : Nat) (pub : LmsPub) (b : Bytes), hssLoop reg msg n pub b = .ok true ↔ Spec.HssValid reg msg n pub b := by
    intro n
    induction n with
    | zero =>
      intro pub b
      rw [hssLoop]
      constructor
      · intro h
        rcases C104_bytes_partial reg hreg b with ⟨he, -⟩ | ⟨he, -⟩ | ⟨s, he, hs, hro, hrl, hb⟩
        · rw [he] at h; cases h
        · rw [he] at h; cases h
        · rw [he] at h
          rw [← hb]
          exact .last pub s hs hro hrl h
      · intro h
        cases h with
        | last _ s hs hro hrl hv =>
          obtain ⟨-, ht, hh⟩ := hreg.2 _ _ hrl
          rw [parseLmsSig_bytes reg s (hreg.1 _ _ hro).2 hro hrl ht hh hs]
          exact hv
    | succ n ih =>
      intro pub b
      rw [hssLoop]
      constructor
      · intro h
        cases h1 : hssSplitSig reg b with
        | err => rw [h1] at h; cases h
        | panic => rw [h1] at h; cases h
        | hang => rw [h1] at h; cases h
        | ok r1 =>
          obtain ⟨s, b1⟩ := r1
          rw [h1] at h
          simp only [errFalse] at h
          cases h2 : hssSplitPub reg b1 with
          | err => rw [h2] at h; cases h
          | panic => rw [h2] at h; cases h
          | hang => rw [h2] at h; cases h
          | ok r2 =>
            obtain ⟨next, b2⟩ := r2
            rw [h2] at h
            simp only at h
            cases h3 : lmsVerify pub (hssDigest pub s.q s.ots.c (lmsPubBytes next)) s with
            | err => rw [h3] at h; cases h
            | panic => rw [h3] at h; cases h
            | hang => rw [h3] at h; cases h
            | ok v =>
              rw [h3] at h
              cases v with
              | false => cases h
              | true =>
                simp only [Bool.not_true, Bool.false_eq_true, if_false] at h
                obtain ⟨hs, hro, hrl, rfl⟩ := splitSig_ok reg hreg b s b1 h1
                obtain ⟨g1, g2, g3, g4, g5, rfl⟩ := splitPub_ok reg hreg b1 next b2 h2
                exact .level n pub next s b2 hs hro hrl g1 g2 g3 g4 g5 h3 ((ih next b2).mp h)
      · intro h
        cases h with
        | level _ _ next s rest hs hro hrl g1 g2 g3 g4 g5 hv hrest =>
          rw [splitSig_bytes reg hreg s hs hro hrl]
          simp only [errFalse]
          rw [splitPub_bytes reg hreg next g1 g2 g3 g4 g5]
          simp only
          rw [show hssDigest pub s.q s.ots.c (lmsPubBytes next) = pub.o.H.f (pub.id ++ hx 4 s.q ++ [0x81, 0x81] ++ s.ots.c ++ lmsPubBytes next) from rfl, hv]
          simp only [Bool.not_true, Bool.false_eq_true, if_false]
          exact (ih next rest).mpr hrest
  obtain ⟨hl1, hl2⟩ := hlev
  have hmod : ((pub.levels - 1) % 2 ^ 32).toNat = pub.levels.toNat - 1 := by omega
  have hsmall : pub.levels.toNat - 1 < 256 ^ 4 := by omega
  rw [hssVerify, hmod]
  constructor
  · intro h
    by_cases h4 : b.length < 4
    · rw [if_pos h4] at h; cases h
    rw [if_neg h4] at h
    simp only at h
    by_cases hnum : setBytes (b.take 4) = pub.levels.toNat - 1
    swap
    · rw [if_pos hnum] at h; cases h
    rw [if_neg (by simpa using hnum), hnum] at h
    refine ⟨b.drop 4, ?_, (hloop _ _ _).mp h⟩
    rw [← hnum, (setBytes_take4 b (by omega)).1, List.take_append_drop]
  · rintro ⟨rest, rfl, hv⟩
    have : ¬ (hx 4 (pub.levels.toNat - 1) ++ rest).length < 4 := by simp
    rw [if_neg this]
    simp only
    rw [List.take_left' (hx_length 4 _), setBytes_hx _ _ hsmall, if_neg (by simp), List.drop_left' (hx_length 4 _)]
    exact (hloop _ _ _).mpr hv

/-- C107, full claim false: `Verify` panics on signatures that are cut short, for every key with more than one level. -/
theorem C107_panic_violated (reg : Reg) (pub : HssPub) (hlev : 2 ≤ pub.levels ∧ pub.levels < 2 ^ 32) (msg rest : Bytes) (h : rest.length < 8) :
    hssVerify reg pub msg (hx 4 (pub.levels.toNat - 1) ++ rest) = .panic := by
  obtain ⟨hl1, hl2⟩ := hlev
  have hmod : ((pub.levels - 1) % 2 ^ 32).toNat = pub.levels.toNat - 1 := by omega
  have hsmall : pub.levels.toNat - 1 < 256 ^ 4 := by omega
  have : ¬ (hx 4 (pub.levels.toNat - 1) ++ rest).length < 4 := by simp
  rw [hssVerify, hmod, if_neg this]
  simp only
  rw [List.take_left' (hx_length 4 _), setBytes_hx _ _ hsmall, if_neg (by simp), List.drop_left' (hx_length 4 _)]
  obtain ⟨n, hn⟩ : ∃ n, pub.levels.toNat - 1 = n + 1 := ⟨pub.levels.toNat - 2, by omega⟩
  rw [hn, hssLoop, hssSplitSig, if_pos h]
  rfl

/-! ### Keys and signing -/

/-- Well-formed keys: from the top, each level's key was made from the seed and has signed the digest of the next public key
(with its index 0); the last one is at index `q`. -/
inductive Chain (reg : Reg) (seed : Bytes) (q : Nat) : List LmsKey → List LmsSig → Nat → Prop
  | last (p : LmsParam) (o : OtsParam) (id : Bytes) : Spec.IsOpt reg p o → id.length = 16 → q ≤ 2 ^ p.h → Chain reg seed q [keyAt p o id seed q] [] p.h
  | level (p : LmsParam) (o : OtsParam) (id : Bytes) (next : LmsKey) (keys : List LmsKey) (s : LmsSig) (sigs : List LmsSig) (h : Nat) : Spec.IsOpt reg p o → id.length = 16 →
      Spec.LmsShape s → s.p = p → s.ots.p = o → lmsVerify (genKey p o id seed).pub (hssDigest (genKey p o id seed).pub s.q s.ots.c (lmsPubBytes next.pub)) s = .ok true →
      Chain reg seed q (next :: keys) sigs h → Chain reg seed q (keyAt p o id seed 1 :: next :: keys) (s :: sigs) h

theorem lmsSign_shape {p : LmsParam} {o : OtsParam} (hp : Spec.IsLms p o) (reg : Reg) (hreg : Spec.IsLmsReg reg) (hro : reg.ots o.typ = some o) (hrl : reg.lms p.typ = some p) (id seed : Bytes)
    (q : Nat) (rd : Option Bytes) (msg : Bytes) (optC : Option Bytes) (hC : ∀ c, optC = some c → c.length = o.N) (key : LmsKey) (sig : LmsSig)
    (h : lmsSign (keyAt p o id seed q) rd msg optC = (key, .ok sig)) : Spec.LmsShape sig ∧ sig.p = p ∧ sig.ots.p = o ∧ ∀ c, optC = some c → sig.ots.c = c := by
  have hb := C104_sign_bytes hp reg hro hrl id seed q rd msg optC hC key sig h
  rcases Nat.lt_or_ge q (2 ^ p.h) with hq | hq
  swap
  · rw [lmsSign_done p o id seed q hq] at h; cases h
  rcases lmsSign_ok hp id seed q hq rd msg optC with ⟨-, h'⟩ | ⟨k, s, ho, h'⟩
  · rw [h] at h'; cases h'
  rw [h] at h'
  cases h'
  refine ⟨?_, rfl, ?_, ?_⟩
  · rcases C104_bytes_partial reg hreg (lmsSigBytes { p, q, ots := s, path := (List.range p.h).map fun i => Spec.node p.h o id seed (0 + i) (((2 ^ p.h + q) >>> i) ^^^ 1) }) with ⟨he, -⟩ | ⟨he, -⟩ | ⟨s', he, hs, -⟩
    · rw [hb.2.1] at he; cases he
    · rw [hb.2.1] at he; cases he
    · rw [hb.2.1] at he; cases he; exact hs
  · rcases otsSign_fresh hp.ots q id seed msg rd optC with ⟨-, h⟩ | ⟨c, e, hn, he, h⟩
    · rw [ho] at h; cases h
    · rw [ho] at h; cases h; rfl
  · rintro c rfl
    rcases otsSign_fresh hp.ots q id seed msg rd (some c) with ⟨-, h⟩ | ⟨c', e, hn, he, h⟩
    · rw [ho] at h; cases h
    · rw [ho] at h
      cases h
      exact (Option.some.inj hn).symm

theorem readBuf_length {n : Nat} {rd : Option Bytes} {c : Bytes} (h : readBuf n rd = some c) : c.length = n := by
  cases rd with
  | none => cases h
  | some b =>
    simp only [readBuf, Option.map_some, Option.some.injEq] at h
    rw [← h]
    simp

theorem genLoop_chain (reg : Reg) (hreg : Spec.IsLmsReg reg) (seed : Bytes) : ∀ (opts : List (LmsParam × OtsParam)) (rds : List (Option Bytes × Option Bytes)) (p : LmsParam) (o : OtsParam) (id : Bytes) (key : HssKey),
    Spec.IsOpt reg p o → (∀ x ∈ opts, Spec.IsOpt reg x.1 x.2) → id.length = 16 → hssGenLoop seed opts rds (genKey p o id seed) = .ok key →
    Chain reg seed 0 key.keys key.sigs ((opts.getLast?.getD (p, o)).1.h) ∧ key.keys.length = opts.length + 1 ∧ ∃ k, key.keys.head? = some k ∧ k.pub = (genKey p o id seed).pub := by
  intro opts
  induction opts with
  | nil =>
    intro rds p o id key ho _ hid h
    rw [hssGenLoop] at h
    cases h
    exact ⟨.last p o id ho hid (Nat.zero_le _), rfl, _, rfl, rfl⟩
  | cons x opts ih =>
    intro rds p o id key ho hopts hid h
    obtain ⟨p', o'⟩ := x
    cases rds with
    | nil => cases h
    | cons rd rds =>
      obtain ⟨rid, rc⟩ := rd
      rw [hssGenLoop] at h
      cases h1 : readBuf 16 rid with
      | none => rw [h1] at h; cases h
      | some id' =>
        rw [h1] at h
        simp only at h
        cases h2 : readBuf 32 rc with
        | none => rw [h2] at h; cases h
        | some C =>
          rw [h2] at h
          simp only at h
          have hC : ∀ c, some C = some c → c.length = o.N := fun c hc => by cases hc; rw [ho.size]; exact readBuf_length h2
          have hk0 : genKey p o id seed = keyAt p o id seed 0 := rfl
          rcases C104_sign ho.lms id seed 0 none (hssDigest (genKey p o id seed).pub 0 C (lmsPubBytes (genKey p' o' id' seed).pub)) (some C) hC with ⟨-, hbad⟩ | ⟨sig, hs, -, hsq, hv⟩
          · rcases hbad with hbad | ⟨hbad, -⟩
            · exact absurd hbad (by have := Nat.two_pow_pos p.h; omega)
            · cases hbad
          obtain ⟨hsh, hsp, hso, hsc⟩ := lmsSign_shape ho.lms reg hreg ho.ots ho.typ id seed 0 none _ (some C) hC _ sig hs
          rw [← hk0] at hs
          rw [hs] at h
          simp only at h
          cases h3 : hssGenLoop seed opts rds (genKey p' o' id' seed) with
          | err => rw [h3] at h; cases h
          | panic => rw [h3] at h; cases h
          | hang => rw [h3] at h; cases h
          | ok r =>
            rw [h3] at h
            cases h
            obtain ⟨hc, hl, k, hk, hkp⟩ := ih rds p' o' id' r (hopts _ (List.mem_cons_self ..)) (fun x hx => hopts x (List.mem_cons_of_mem _ hx)) (readBuf_length h1) h3
            refine ⟨?_, by simp [hl], _, rfl, rfl⟩
            obtain ⟨keys, sigs⟩ := r
            cases keys with
            | nil => cases hk
            | cons k' keys =>
              simp only [List.head?_cons, Option.some.injEq] at hk
              subst hk
              have hlast : (((p', o') :: opts).getLast?.getD (p, o)) = opts.getLast?.getD (p', o') := by
                cases opts with
                | nil => rfl
                | cons y ys => rw [List.getLast?_cons_cons, List.getLast?_eq_getLast_of_ne_nil (List.cons_ne_nil _ _)]; rfl
              rw [hlast]
              refine .level p o id k' keys sig sigs _ ho hid hsh hsp hso ?_ hc
              rw [hkp, hsq, hsc C rfl]
              exact hv

/-- The keys with the last one at another index. -/
theorem chain_sign (reg : Reg) (hreg : Spec.IsLmsReg reg) (seed : Bytes) (q : Nat) (msg : Bytes) (rd : Option Bytes) : ∀ (keys : List LmsKey) (sigs : List LmsSig) (h : Nat), Chain reg seed q keys sigs h →
    ∃ last, keys.getLast? = some last ∧
    ((lmsSign last rd msg none = (last, .err) ∧ (2 ^ h ≤ q ∨ rd = none)) ∨
     ∃ last' sig, lmsSign last rd msg none = (last', .ok sig) ∧ sig.q = q ∧ q < 2 ^ h ∧ rd ≠ none ∧ Chain reg seed (q + 1) (keys.dropLast ++ [last']) sigs h ∧
      (keys.dropLast ++ [last']).head?.map (·.pub) = keys.head?.map (·.pub) ∧ (keys.dropLast ++ [last']).length = keys.length ∧
      ∀ k, keys.head? = some k → Spec.HssValid reg msg (keys.length - 1) k.pub (hssChain sigs (keys.drop 1) ++ lmsSigBytes sig)) := by
  intro keys sigs h hc
  induction hc with
  | last p o id ho hid hq =>
    refine ⟨_, rfl, ?_⟩
    rcases C104_sign ho.lms id seed q rd msg none (fun c hc => by cases hc) with ⟨hs, hw⟩ | ⟨sig, hs, hlt, hsq, hv⟩
    · left
      refine ⟨hs, ?_⟩
      rcases hw with hw | hw
      · exact .inl hw
      · exact .inr hw.2
    · right
      obtain ⟨hsh, hsp, hso, -⟩ := lmsSign_shape ho.lms reg hreg ho.ots ho.typ id seed q rd msg none (fun c hc => by cases hc) _ sig hs
      refine ⟨_, sig, hs, hsq, hlt, ?_, .last p o id ho hid hlt, rfl, rfl, ?_⟩
      · rintro rfl
        rcases lmsSign_ok ho.lms id seed q hlt none msg none with ⟨-, h'⟩ | ⟨k, s, hos, -⟩
        · rw [hs] at h'; cases h'
        · rcases otsSign_fresh ho.lms.ots q id seed msg none none with ⟨-, h⟩ | ⟨c, e, hn, -⟩
          · rw [hos] at h; cases h
          · cases hn
      · intro k hk
        cases hk
        exact .last _ sig hsh (by rw [hso]; exact ho.ots) (by rw [hsp]; exact ho.typ) hv
  | level p o id next keys s sigs h ho hid hsh hsp hso hv hc ih =>
    obtain ⟨last, hl, hrest⟩ := ih
    refine ⟨last, by rw [List.getLast?_cons_cons]; exact hl, ?_⟩
    rcases hrest with hr | ⟨last', sig, hs, hsq, hlt, hrd, hc', hhead, hlen, hval⟩
    · exact .inl hr
    · right
      refine ⟨last', sig, hs, hsq, hlt, hrd, ?_, rfl, ?_, ?_⟩
      · rw [List.dropLast_cons_cons, List.cons_append]
        obtain ⟨n', ks', hks⟩ : ∃ n' ks', (next :: keys).dropLast ++ [last'] = n' :: ks' := by
          cases hh : (next :: keys).dropLast ++ [last'] with
          | nil => rw [hh] at hlen; cases hlen
          | cons n' ks' => exact ⟨n', ks', rfl⟩
        rw [hks] at hhead hc' ⊢
        have hpub : n'.pub = next.pub := Option.some.inj hhead
        exact .level p o id n' ks' s sigs h ho hid hsh hsp hso (by rw [hpub]; exact hv) hc'
      · rw [List.dropLast_cons_cons, List.cons_append, List.length_cons, hlen, List.length_cons]
        rfl
      · intro k hk
        cases hk
        have hnext : reg.lms next.pub.p.typ = some next.pub.p ∧ reg.ots next.pub.o.typ = some next.pub.o ∧ next.pub.id.length = 16 ∧ next.pub.k.length = next.pub.p.M ∧ next.pub.p.M = next.pub.o.N := by
          have key : ∀ (p : LmsParam) (o : OtsParam) (id : Bytes), Spec.IsOpt reg p o → id.length = 16 → reg.lms (genKey p o id seed).pub.p.typ = some (genKey p o id seed).pub.p ∧ reg.ots (genKey p o id seed).pub.o.typ = some (genKey p o id seed).pub.o ∧
              (genKey p o id seed).pub.id.length = 16 ∧ (genKey p o id seed).pub.k.length = (genKey p o id seed).pub.p.M ∧ (genKey p o id seed).pub.p.M = (genKey p o id seed).pub.o.N := fun p o id ho hid =>
            ⟨ho.typ, ho.ots, hid, by rw [C104_root, node_length]; exact (ho.lms.size.trans ho.lms.ots.size).symm, ho.lms.size⟩
          cases hc with
          | last p o id ho hid _ => exact key p o id ho hid
          | level p o id _ _ _ _ _ ho hid => exact key p o id ho hid
        obtain ⟨g1, g2, g3, g4, g5⟩ := hnext
        have := hval next rfl
        rw [show (keyAt p o id seed 1 :: next :: keys).length - 1 = ((next :: keys).length - 1) + 1 by simp]
        rw [show hssChain (s :: sigs) ((keyAt p o id seed 1 :: next :: keys).drop 1) ++ lmsSigBytes sig = lmsSigBytes s ++ (lmsPubBytes next.pub ++ (hssChain sigs ((next :: keys).drop 1) ++ lmsSigBytes sig)) by
          simp [hssChain, List.append_assoc]]
        exact .level _ _ next.pub s _ hsh (by rw [hso]; exact ho.ots) (by rw [hsp]; exact ho.typ) g1 g2 g3 g4 g5 hv this

theorem chain_bytes (reg : Reg) (hreg : Spec.IsLmsReg reg) (seed : Bytes) (hseed : seed.length = 32) (q : Nat) : ∀ (keys : List LmsKey) (sigs : List LmsSig) (h : Nat), Chain reg seed q keys sigs h →
    (∀ i rest, i + keys.length ≤ 5 → hssKeys reg i keys.length (keys.flatMap lmsKeyBytes ++ rest) = .ok (keys, rest)) ∧
    (∀ i rest, i + keys.length ≤ 5 → hssSigs reg i (keys.length - 1) (sigs.flatMap lmsSigBytes ++ rest) = .ok (sigs, rest)) := by
  have hone : ∀ (p : LmsParam) (o : OtsParam) (id : Bytes) (q : Nat) (rest : Bytes), Spec.IsOpt reg p o → id.length = 16 → q ≤ 2 ^ p.h → hssSplitKey reg (lmsKeyBytes (keyAt p o id seed q) ++ rest) = .ok (keyAt p o id seed q, rest) := by
    intro p o id q rest ho hid hq
    have hlt : 2 ^ p.h ≤ 2 ^ 30 := Nat.pow_le_pow_right (by decide) ho.lms.height
    have hM : p.M = 32 := ho.lms.size.trans ho.size
    have hk := C104_key_bytes ho.lms reg ho.ots ho.typ id seed hid q (by omega)
    rw [if_neg (by omega), hM, ← hseed, List.take_length] at hk
    have hlen : (lmsKeyBytes (keyAt p o id seed q)).length = 28 + p.M := by
      simp [lmsKeyBytes, keyAt, genKey, hid, hseed, hM]
    have e1 : (lmsKeyBytes (keyAt p o id seed q) ++ rest).take 4 = hx 4 p.typ := by
      simp only [lmsKeyBytes, List.append_assoc]; rw [List.take_left' (hx_length 4 _)]; rfl
    have hl2 : (lmsKeyBytes (keyAt p o id seed q) ++ rest).length = 28 + p.M + rest.length := by rw [List.length_append, hlen]
    rw [hssSplitKey, if_neg (by omega), e1, setBytes_hx _ _ ho.lms.typ, ho.typ]
    simp only
    rw [if_neg (by omega), List.take_left' hlen, hk, List.drop_left' hlen]
    rfl
  intro keys sigs h hc
  induction hc with
  | last p o id ho hid hq =>
    refine ⟨?_, ?_⟩
    · intro i rest hi
      simp only [List.length_cons, List.length_nil] at hi
      simp only [List.length_cons, List.length_nil, List.flatMap_cons, List.flatMap_nil, List.append_nil, hssKeys]
      rw [hone p o id q rest ho hid hq]
      simp only [Res.bind_ok]
      rw [if_neg (by omega)]
    · intro i rest _; rfl
  | level p o id next keys s sigs h ho hid hsh hsp hso hv hc ih =>
    obtain ⟨ih1, ih2⟩ := ih
    refine ⟨?_, ?_⟩
    · intro i rest hi
      simp only [List.length_cons] at hi ih1
      rw [List.length_cons, List.flatMap_cons, List.append_assoc, hssKeys, hone p o id 1 _ ho hid Nat.one_le_two_pow]
      simp only [Res.bind_ok]
      rw [if_neg (by omega), List.length_cons, ih1 (i + 1) rest (by omega)]
      rfl
    · intro i rest hi
      simp only [List.length_cons] at hi ih2
      rw [show (keyAt p o id seed 1 :: next :: keys).length - 1 = ((next :: keys).length - 1) + 1 by simp, List.flatMap_cons, List.append_assoc, hssSigs,
        splitSig_bytes reg hreg s hsh (by rw [hso]; exact ho.ots) (by rw [hsp]; exact ho.typ)]
      simp only [Res.bind_ok]
      rw [if_neg (by omega), List.length_cons, ih2 (i + 1) rest (by omega)]
      rfl

/-- The signatures a history of calls produces, with their messages. -/
def hssRun (reg : Reg) : List (Option (Option Bytes × Bytes)) → HssKey → List (Bytes × Bytes)
  | [], _ => []
  | some (rd, msg) :: evs, key =>
    match hssSign key rd msg with
    | (key, .ok sig) => (msg, sig) :: hssRun reg evs key
    | (key, _) => hssRun reg evs key
  | none :: evs, key =>
    match parseHssKey reg (hssKeyBytes key) with
    | .ok key => hssRun reg evs key
    | _ => []

/-- The calls to sign whose random source does not fail. -/
def Spec.hssSigns (evs : List (Option (Option Bytes × Bytes))) : List Bytes := evs.filterMap fun e =>
  match e with
  | some (some _, msg) => some msg
  | _ => none

/-- C107. For every history of calls (signing, or saving and loading the key) on a key with one to five levels made by
`GenerateHSSKey`: it answers the first `2^h` calls to sign, where `h` is the height of the lowest tree, and no other; and every
answer verifies under the public key.  The lowest tree is never replaced: the levels above add nothing to the number of
signatures. -/
theorem C107_history (reg : Reg) (hreg : Spec.IsLmsReg reg) (opts : List (LmsParam × OtsParam)) (hopts : ∀ x ∈ opts, Spec.IsOpt reg x.1 x.2) (rseed rid : Option Bytes)
    (rds : List (Option Bytes × Option Bytes)) (key : HssKey) (hgen : hssGen opts rseed rid rds = .ok key) (evs : List (Option (Option Bytes × Bytes))) :
    ∃ pub last, key.pub = some pub ∧ pub.levels = opts.length ∧ opts.getLast? = some last ∧
      (hssRun reg evs key).map (·.1) = (Spec.hssSigns evs).take (2 ^ last.1.h) ∧ ∀ x ∈ hssRun reg evs key, hssVerify reg pub x.1 x.2 = .ok true := by
  have hgen' := hgen
  unfold hssGen at hgen
  by_cases h5 : opts.length > 5
  · rw [if_pos h5] at hgen; cases hgen
  rw [if_neg h5] at hgen
  cases opts with
  | nil => cases hgen
  | cons x opts =>
    obtain ⟨p, o⟩ := x
    simp only at hgen
    cases h1 : readBuf 32 rseed with
    | none => rw [h1] at hgen; cases hgen
    | some seed =>
      rw [h1] at hgen
      simp only at hgen
      cases h2 : readBuf 16 rid with
      | none => rw [h2] at hgen; cases hgen
      | some id =>
        rw [h2] at hgen
        simp only at hgen
        obtain ⟨hc, hlen, k, hk, hkp⟩ := genLoop_chain reg hreg seed opts rds p o id key (hopts _ (List.mem_cons_self ..)) (fun x hx => hopts x (List.mem_cons_of_mem _ hx)) (readBuf_length h2) hgen
        have hlast : ((p, o) :: opts).getLast? = some (opts.getLast?.getD (p, o)) := by
          cases opts with
          | nil => rfl
          | cons y ys => rw [List.getLast?_cons_cons, List.getLast?_eq_getLast_of_ne_nil (List.cons_ne_nil _ _)]; rfl
        rw [List.length_cons] at h5
        refine ⟨{ levels := ((opts.length + 1 : Nat) : Int), pub := (genKey p o id seed).pub }, _, ?_, ?_, hlast, ?_⟩
        · rw [HssKey.pub, hk, hlen, ← hkp]; rfl
        · simp
        generalize (opts.getLast?.getD (p, o)).1.h = h at hc
        have hmain : ∀ (evs : List (Option (Option Bytes × Bytes))) (q : Nat) (key : HssKey), Chain reg seed q key.keys key.sigs h → key.keys.length = opts.length + 1 → q ≤ 2 ^ h →
            key.keys.head?.map (·.pub) = some (genKey p o id seed).pub →
            (hssRun reg evs key).map (·.1) = (Spec.hssSigns evs).take (2 ^ h - q) ∧
            ∀ x ∈ hssRun reg evs key, hssVerify reg { levels := ((opts.length + 1 : Nat) : Int), pub := (genKey p o id seed).pub } x.1 x.2 = .ok true := by
          intro evs
          induction evs with
          | nil => intro q key _ _ _ _; simp [hssRun, Spec.hssSigns]
          | cons e evs ih =>
            intro q key hc hlen hq hhead
            cases e with
            | none =>
              obtain ⟨hb1, hb2⟩ := chain_bytes reg hreg seed (readBuf_length h1) q _ _ _ hc
              have hparse : parseHssKey reg (hssKeyBytes key) = .ok key := by
                have hl4 : ¬ (hssKeyBytes key).length < 4 := by simp [hssKeyBytes]
                rw [parseHssKey, if_neg hl4]
                simp only [hssKeyBytes, List.append_assoc]
                rw [List.take_left' (hx_length 4 _), setBytes_hx _ _ (by omega), List.drop_left' (hx_length 4 _), hb1 0 _ (by omega)]
                have := hb2 0 [] (by omega)
                rw [List.append_nil] at this
                simp only [Res.bind_ok, this]
              simp only [hssRun, hparse]
              exact ih q key hc hlen hq hhead
            | some x =>
              obtain ⟨rd, msg⟩ := x
              obtain ⟨last, hl, hr⟩ := chain_sign reg hreg seed q msg rd _ _ _ hc
              rcases hr with ⟨hs, hw⟩ | ⟨last', sig, hs, hsq, hlt, hrd, hc', hhead', hlen', hval⟩
              · have hsg : hssSign key rd msg = (key, .err) := by rw [hssSign, hl]; simp only [hs]
                simp only [hssRun, hsg]
                obtain ⟨i1, i2⟩ := ih q key hc hlen hq hhead
                refine ⟨?_, i2⟩
                rw [i1]
                rcases hw with hw | rfl
                · rw [show 2 ^ h - q = 0 by omega, List.take_zero, List.take_zero]
                · rfl
              · have hsg : hssSign key rd msg = ({ key with keys := key.keys.dropLast ++ [last'] }, .ok (hx 4 (key.keys.length - 1) ++ hssChain key.sigs (key.keys.drop 1) ++ lmsSigBytes sig)) := by
                  rw [hssSign, hl]; simp only [hs]
                simp only [hssRun, hsg]
                obtain ⟨i1, i2⟩ := ih (q + 1) { key with keys := key.keys.dropLast ++ [last'] } hc' (hlen'.trans hlen) hlt (by rw [hhead', hhead])
                have hss : Spec.hssSigns (some (rd, msg) :: evs) = msg :: Spec.hssSigns evs := by
                  cases rd with
                  | none => exact absurd rfl hrd
                  | some r => rfl
                refine ⟨?_, ?_⟩
                · rw [hss, List.map_cons, i1, show 2 ^ h - q = (2 ^ h - (q + 1)) + 1 by omega, List.take_succ_cons]
                · intro x hx'
                  rcases List.mem_cons.mp hx' with rfl | hx'
                  · obtain ⟨k, hk⟩ : ∃ k, key.keys.head? = some k := by
                      cases hh : key.keys.head? with
                      | none => rw [hh] at hhead; cases hhead
                      | some k => exact ⟨k, rfl⟩
                    have hkp : k.pub = (genKey p o id seed).pub := by rw [hk] at hhead; exact Option.some.inj hhead
                    apply (C107_verify reg hreg _ ⟨by simp only; omega, by simp only; omega⟩ _ _).mpr
                    refine ⟨hssChain key.sigs (key.keys.drop 1) ++ lmsSigBytes sig, ?_, ?_⟩
                    · simp only [List.append_assoc, hlen]
                      simp
                    · have := hval k hk
                      rw [hkp, hlen, Nat.add_sub_cancel] at this
                      simpa using this
                  · exact i2 x hx'
        have := hmain evs 0 key hc hlen (Nat.zero_le _) (by rw [hk, Option.map_some, hkp])
        rwa [Nat.sub_zero] at this

/-- A hash function with 32 bytes, for tests. -/
def toyH32 : HashFn where
  f m := List.replicate 31 1#8 ++ [m.getLastD 0 + m.headD 0 * 3 + 5#8]
  size := 32
  block := 4
  pos := by decide
  len _ := by simp

def toyOts32 : OtsParam := { typ := 3, H := toyH32, N := 32, W := .w4, P := 67, LS := 4, sigLen := 2180 }
def toyLms32 : LmsParam := { typ := 5, M := 32, h := 1 }
def toyReg32 : Reg := { ots := fun t => if t = 3 then some toyOts32 else none, lms := fun t => if t = 5 then some toyLms32 else none }

theorem toyReg32_isLmsReg : Spec.IsLmsReg toyReg32 := by
  have : Spec.IsOts toyOts32 := C102_params toyH32 toyH32 rfl rfl _ (by simp [otsTable, toyOts32])
  constructor
  · intro t p h
    simp only [toyReg32, Option.ite_none_right_eq_some, Option.some.injEq] at h
    obtain ⟨rfl, rfl⟩ := h
    exact ⟨rfl, this⟩
  · intro t p h
    simp only [toyReg32, Option.ite_none_right_eq_some, Option.some.injEq] at h
    obtain ⟨rfl, rfl⟩ := h
    exact ⟨rfl, by decide, by decide⟩

example : Spec.IsOpt toyReg32 toyLms32 toyOts32 :=
  ⟨⟨C102_params toyH32 toyH32 rfl rfl _ (by simp [otsTable, toyOts32]), by decide, by decide, by decide⟩, rfl, rfl, rfl⟩

/-- Two levels of height 1: two signatures, across a save and load, then no more. -/
example : (match hssGen [(toyLms32, toyOts32), (toyLms32, toyOts32)] (some [1, 2]) (some [3]) [(some [4], some [5])] with
    | .ok key => (hssRun toyReg32 [some (some [9], [1, 2, 3]), none, some (none, [1]), some (some [9], [4]), some (some [9], [5])] key).map (·.1)
    | _ => []) = [[1, 2, 3], [4]] := by decide +kernel

end Verif.Pub.Lms
