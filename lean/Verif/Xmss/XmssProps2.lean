import Verif.Xmss.XmssProps
/-!
# C145 and C146: what `Verify` does with the message, and what the digests fill

`Verify(pub, m, signature)` of the XMSS packages: the second argument is documented as the
message.
-/

namespace Verif.Xmss
open Verif

theorem verifyLayers_rest (P : Params) (pubSeed : Bytes) (k i idx : Nat) (root sig : Bytes)
    (o l n : Addr) :
    (verifyLayers P pubSeed k i idx root sig o l n).2 = sig.drop (k * (P.wotsLen + P.th * P.n)) := by
  induction k generalizing i idx root sig o l n with
  | zero => simp [verifyLayers]
  | succ k ih =>
    simp only [verifyLayers]
    rw [ih, List.drop_drop, List.drop_drop]
    congr 1
    ring

/-- The buffer `Verify` hashes when `m` is as long as the signature: nothing of `m`. -/
theorem hashed_eq (P : Params) (hW : Wf P) (pub m sig : Bytes) (idx : Nat)
    (hp : 2 * P.n ≤ pub.length) (hs : P.signBytes ≤ sig.length) (hm : m.length = sig.length) :
    put (put m P.signBytes (sig.drop P.signBytes)) (P.signBytes - P.pl - 3 * P.n)
        (msgPrefix P ((sig.drop P.ib).take P.n) (pub.take P.n) idx) =
      m.take (P.signBytes - P.pl - 3 * P.n) ++
        (msgPrefix P ((sig.drop P.ib).take P.n) (pub.take P.n) idx ++ sig.drop P.signBytes) := by
  have hsb : P.signBytes = P.ib + P.n + P.d * P.wotsLen + P.d * (P.h * P.n) := rfl
  have hroom := hW.room
  have hpre := prefix_len (P := P) idx ((sig.drop P.ib).take P.n) (pub.take P.n)
    (by rw [List.length_take, List.length_drop]; omega) (by rw [List.length_take]; omega)
  generalize msgPrefix P ((sig.drop P.ib).take P.n) (pub.take P.n) idx = px at *
  have m1 : put m P.signBytes (sig.drop P.signBytes) = m.take P.signBytes ++ sig.drop P.signBytes := by
    have t : m.drop (P.signBytes + (sig.drop P.signBytes).length) = [] :=
      List.drop_of_length_le (by rw [List.length_drop]; omega)
    rw [put_in _ _ _ (by rw [List.length_drop]; omega), t, List.append_nil]
  rw [m1]
  generalize hoff : P.signBytes - P.pl - 3 * P.n = off
  have hpl : off + px.length = P.signBytes := by rw [hpre]; omega
  have u1 : (m.take P.signBytes ++ sig.drop P.signBytes).take off = m.take off := by
    rw [List.take_append_of_le_length (by rw [List.length_take]; omega), List.take_take]
    congr 1; omega
  have u2 : (m.take P.signBytes ++ sig.drop P.signBytes).drop P.signBytes = sig.drop P.signBytes :=
    List.drop_left' (by rw [List.length_take]; omega)
  rw [put_in _ _ _ (by simp only [List.length_append, List.length_take, List.length_drop]; omega),
    hpl, u1, u2, List.append_assoc]

/-- **C145 is violated**: the verdict does not depend on the message the caller passes.  For
any two buffers as long as the signature the answer is the same: what is checked is the
message inside the signature. -/
theorem C145_message_ignored_violated (P : Params) (hW : Wf P) (pub sig m1 m2 : Bytes)
    (hp : 2 * P.n ≤ pub.length) (hs : P.signBytes ≤ sig.length) (h1 : m1.length = sig.length)
    (h2 : m2.length = sig.length) :
    ∃ b o1 o2, verify P pub m1 sig = .ok (b, o1) ∧ verify P pub m2 sig = .ok (b, o2) := by
  have hsb : P.signBytes = P.ib + P.n + P.d * P.wotsLen + P.d * (P.h * P.n) := rfl
  have key : ∀ m : Bytes, m.length = sig.length → ∃ o, verify P pub m sig =
      .ok (decide ((verifyLayers P (pub.drop P.n) P.d 0 (fromBytes (sig.take P.ib))
        (cp (zeros P.n) (core P (msgPrefix P ((sig.drop P.ib).take P.n) (pub.take P.n)
          (fromBytes (sig.take P.ib)) ++ sig.drop P.signBytes)))
        (sig.drop (P.ib + P.n)) (Addr.ofType 0) (Addr.ofType 1) (Addr.ofType 2)).1 =
        pub.take P.n), o) := by
    intro m hm
    unfold verify
    rw [if_neg (by omega), if_neg (by omega), if_neg (by omega)]
    simp only []
    rw [hashed_eq P hW pub m sig _ hp hs hm]
    rw [List.drop_left' (by rw [List.length_take]; omega)]
    split
    · rename_i e; exact ⟨_, by rw [decide_eq_true e]⟩
    · rename_i e; exact ⟨_, by rw [decide_eq_false e]⟩
  obtain ⟨o1, e1⟩ := key m1 h1
  obtain ⟨o2, e2⟩ := key m2 h2
  exact ⟨_, o1, o2, e1, e2⟩

/-- The hypotheses of `C145_message_ignored_violated` for the smallest set of `xmss`, and two
different messages. -/
example (hs : HashId → Bytes → Bytes) : Wf ((⟨.sha256, 32, 32, 10, 1⟩ : Row).params hs) ∧
    ([1, 2, 3] : Bytes) ≠ [4, 5, 6] :=
  ⟨wf_row hs .xmss 1 _ (by decide +kernel), by decide⟩

/-- **C145 is violated**: a caller who passes the message itself, when it is shorter than a
signature without its message, gets a panic and no verdict. -/
theorem C145_buffer_violated (P : Params) (pub sig m : Bytes) (hs : P.signBytes ≤ sig.length)
    (hm : m.length < P.signBytes) : verify P pub m sig = .panic := by
  unfold verify
  rw [if_neg (by omega)]
  rw [if_pos hm]
  split <;> rfl

/-- For `XMSS-SHA2_10_256` that is every message shorter than 2500 bytes. -/
example (hs : HashId → Bytes → Bytes) (pub sig m : Bytes) (h : 2500 ≤ sig.length)
    (hm : m.length < 2500) :
    verify ((⟨.sha256, 32, 32, 10, 1⟩ : Row).params hs) pub m sig = .panic := by
  have e : ((⟨.sha256, 32, 32, 10, 1⟩ : Row).params hs).signBytes = 2500 := by
    have h2 : ((⟨.sha256, 32, 32, 10, 1⟩ : Row).params hs).len2 = 3 := by
      show Nat.log2 (2 * 32 * 15) / 4 + 1 = 3
      decide +kernel
    simp only [Params.signBytes, Params.wotsLen, Params.wlen, h2]
    show 4 + 32 + 1 * ((2 * 32 + 3) * 32) + 1 * (10 * 32) = 2500
    decide
  apply C145_buffer_violated
  · omega
  · omega

/-- **C145** (part).  For the single layer sets, and any signature at all: when `Verify`
accepts, the buffer ends with the message the signature holds, and when it rejects the
buffer ends with zeros. -/
theorem C145_open_partial (P : Params) (hW : Wf P) (hd : P.d = 1) (pub sig m : Bytes)
    (hp : 2 * P.n ≤ pub.length) (hs : P.signBytes ≤ sig.length) (hm : m.length = sig.length) :
    ∃ b out, verify P pub m sig = .ok (b, out) ∧ out.length = sig.length ∧
      out.drop P.signBytes =
        if b then sig.drop P.signBytes else zeros (sig.length - P.signBytes) := by
  have hsb : P.signBytes = P.ib + P.n + P.d * P.wotsLen + P.d * (P.h * P.n) := rfl
  have hth : P.th = P.h := by unfold Params.th; rw [hd, Nat.div_one]
  have hrest : ∀ idx root, (verifyLayers P (pub.drop P.n) P.d 0 idx root
      (sig.drop (P.ib + P.n)) (Addr.ofType 0) (Addr.ofType 1) (Addr.ofType 2)).2 =
      sig.drop P.signBytes := by
    intro idx root
    rw [verifyLayers_rest, List.drop_drop, hsb, hth, hd]
    congr 1
    ring
  have fin : ∀ px t : Bytes, px.length = P.pl + 3 * P.n → t.length = sig.length - P.signBytes →
      (put (m.take (P.signBytes - P.pl - 3 * P.n) ++ (px ++ sig.drop P.signBytes))
        P.signBytes t).length = sig.length ∧
      (put (m.take (P.signBytes - P.pl - 3 * P.n) ++ (px ++ sig.drop P.signBytes))
        P.signBytes t).drop P.signBytes = t := by
    intro px t hpx ht
    have hroom := hW.room
    have hl : (m.take (P.signBytes - P.pl - 3 * P.n) ++ (px ++ sig.drop P.signBytes)).length =
        sig.length := by
      simp only [List.length_append, List.length_take, List.length_drop, hpx]; omega
    refine ⟨by rw [put_len, hl], ?_⟩
    rw [put_in _ _ _ (by omega), List.append_assoc,
      List.drop_left' (by rw [List.length_take]; omega),
      List.drop_of_length_le (by omega), List.append_nil]
  have hpre := prefix_len (P := P) (fromBytes (sig.take P.ib)) ((sig.drop P.ib).take P.n) (pub.take P.n)
    (by rw [List.length_take, List.length_drop]; omega) (by rw [List.length_take]; omega)
  unfold verify
  rw [if_neg (by omega), if_neg (by omega), if_neg (by omega)]
  simp only []
  rw [hashed_eq P hW pub m sig _ hp hs hm, hrest]
  split
  · obtain ⟨f1, f2⟩ := fin _ (sig.drop P.signBytes) hpre (by rw [List.length_drop])
    exact ⟨true, _, rfl, f1, by rw [f2]; rfl⟩
  · obtain ⟨f1, f2⟩ := fin _ (zeros (sig.length - P.signBytes)) hpre (by simp [zeros])
    exact ⟨false, _, rfl, f1, by rw [f2]; rfl⟩

/-- **C145 is violated by the multi layer sets**: `Verify` accepts the signature of `m`, and
hands back zeros in place of `m` whenever `m` is not longer than the unused part of the
signature, `(d-1)·h·n - paddingLen - 3n` bytes. -/
theorem C145_mt_message_violated (hs : HashId → Bytes → Bytes)
    (hlen : ∀ a x, (hs a x).length = a.size)
    (p : Pkg) (oid : Nat) (w : Row) (hrow : p.row oid = some w) (seed : Bytes)
    (hseed : seed.length = 3 * w.n) (m : Bytes)
    (hm : m.length + w.pl + 3 * w.n ≤ (w.d - 1) * (w.h * w.n)) :
    ∃ (priv pub sg priv' : Bytes),
      oidGenerate hs p seed oid = some (priv, pub) ∧
      oidSign hs p priv m = .ok (some sg, priv') ∧
      ∀ buf : Bytes, buf.length = sg.length → ∃ out, oidVerify hs p pub buf sg = .ok (true, out) ∧
        out.drop (w.params hs).signBytes = zeros m.length := by
  have hW := wf_row hs p oid w hrow
  have h2 : 2 ≤ 2 ^ w.h := by
    have : 1 ≤ w.h := by
      have a := hW.d
      have b := hW.th
      have c := hW.hd
      have : 1 ≤ (w.params hs).d * (w.params hs).th := Nat.mul_pos a b
      rw [c] at this
      exact this
    calc 2 = 2 ^ 1 := rfl
      _ ≤ 2 ^ w.h := Nat.pow_le_pow_right (by omega) this
  obtain ⟨priv, pub, sigs, priv', a, b, c, -, -, -, f⟩ :=
    history hs hlen p oid w hrow seed hseed [m] (by simp only [List.length_singleton]; omega)
  match sigs, c with
  | [sg], _ =>
    have hb : oidSign hs p priv m = .ok (some sg, priv') := by
      simp only [oidSignMany] at b
      cases hq : oidSign hs p priv m with
      | ok x =>
        obtain ⟨x1, x2⟩ := x
        rw [hq] at b
        simp only [List.map_cons, List.map_nil, Res.ok.injEq, Prod.mk.injEq, List.cons.injEq,
          and_true] at b
        rw [b.1, b.2]
      | err => rw [hq] at b; exact absurd b (by simp)
      | panic => rw [hq] at b; exact absurd b (by simp)
      | hang => rw [hq] at b; exact absurd b (by simp)
    refine ⟨priv, pub, sg, priv', a, hb, ?_⟩
    intro buf hbuf
    obtain ⟨-, -, -, g⟩ := f 0 m sg rfl rfl
    obtain ⟨out, g1, -, -, g2⟩ := g buf hbuf
    exact ⟨out, g1, g2 hm⟩

/-- For `XMSSMT-SHA2_20/2_256` that is every message of up to 512 bytes. -/
example : Pkg.xmssmt.row 1 = some ⟨.sha256, 32, 32, 20, 2⟩ ∧
    512 + 32 + 3 * 32 ≤ (2 - 1) * (20 * 32) := ⟨by decide +kernel, by decide⟩

/-! ## C146: the digests -/

/-- **C146** (part).  In every parameter set except the eleven named `SHA2_…_512`, the hash
gives at least the `n` bytes a node holds. -/
theorem C146_digest_partial (p : Pkg) (oid : Nat) (w : Row) (hrow : p.row oid = some w)
    (hx : ¬ (w.hash = .sha256 ∧ w.n = 64)) : w.n ≤ w.hash.size := by
  have hl := row_lt p oid w hrow
  have k1 : ∀ oid < 57, ∀ w ∈ xmssRow oid, ¬ (w.hash = .sha256 ∧ w.n = 64) → w.n ≤ w.hash.size := by
    decide +kernel
  have k2 : ∀ oid < 57, ∀ w ∈ xmssmtRow oid, ¬ (w.hash = .sha256 ∧ w.n = 64) →
      w.n ≤ w.hash.size := by decide +kernel
  have k3 : ∀ oid < 57, ∀ w ∈ sm3xmssRow oid, ¬ (w.hash = .sha256 ∧ w.n = 64) →
      w.n ≤ w.hash.size := by decide +kernel
  cases p with
  | xmss => exact k1 oid hl w hrow hx
  | xmssmt => exact k2 oid hl w hrow hx
  | sm3xmss => exact k3 oid hl w hrow hx

/-- **C146 is violated by the sets named `SHA2_…_512`**: they use SHA-256 with `n = 64`, and
the second half of the root in every public key they generate is zero. -/
theorem C146_digest_violated (hs : HashId → Bytes → Bytes)
    (hlen : ∀ a x, (hs a x).length = a.size)
    (p : Pkg) (oid : Nat) (w : Row) (hrow : p.row oid = some w)
    (h256 : w.hash = .sha256) (h64 : w.n = 64) (seed : Bytes) (hseed : seed.length = 3 * w.n) :
    ∃ (priv pub : Bytes), oidGenerate hs p seed oid = some (priv, pub) ∧
      (pub.drop (4 + 32)).take 32 = zeros 32 := by
  have hW := wf_row hs p oid w hrow
  have hr : ∀ x, ((w.params hs).hash x).length = 32 := fun x => by
    have := hlen w.hash x
    rw [h256] at this
    show (hs w.hash x).length = 32
    rw [h256]; exact this
  obtain ⟨s1, s2, s3, h1, h2, h3, hk⟩ := genKey_eq (w.params hs) hW seed hseed
  have hZ := Z_node (w.params hs) s1 s3 ((w.params hs).d - 1) 0 hr (w.params hs).th 0
  generalize node (w.params hs) s1 s3 ((w.params hs).d - 1) 0 (w.params hs).th 0 = root at hk hZ
  have hn : (w.params hs).n = 64 := h64
  obtain ⟨hl, hz⟩ := hZ
  rw [hn] at hl hz
  refine ⟨toBytes oid 4 ++ prvOf (w.params hs) 0 s1 s2 s3 root, toBytes oid 4 ++ (root ++ s3), ?_, ?_⟩
  · unfold oidGenerate
    simp only [hrow]
    rw [hk]
  · rw [drop_parts _ _ _ _ (toBytes_len _ _), List.drop_append_of_le_length (by omega), hz]
    exact List.take_left' (by simp [zeros])

/-- `XMSS-SHA2_10_512` is such a set. -/
example : Pkg.xmss.row 4 = some ⟨.sha256, 64, 64, 10, 1⟩ := by decide +kernel

end Verif.Xmss
