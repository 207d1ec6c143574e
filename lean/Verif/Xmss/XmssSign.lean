import Verif.Xmss.XmssLayers
/-! # The bytes of a signature, and what `Verify` makes of them -/

namespace Verif.Xmss
open Verif

/-- The parameter sets the theorems are about.  `XmssParams.lean` shows that every
parameter set the library offers meets this. -/
structure Wf (P : Params) : Prop where
  d : 1 ≤ P.d
  th : 1 ≤ P.th
  hd : P.d * P.th = P.h
  ix : 2 ^ P.h ≤ 256 ^ P.ib
  room : P.pl + 3 * P.n ≤ P.d * P.wotsLen + P.d * (P.h * P.n)

/-- A private key from its parts: index, secret seed, message seed, public seed, root. -/
def prvOf (P : Params) (idx : Nat) (s1 s2 s3 root : Bytes) : Bytes :=
  toBytes idx P.ib ++ (s1 ++ (s2 ++ (s3 ++ root)))

theorem take_parts (a b : Bytes) (n : Nat) (h : a.length = n) : (a ++ b).take n = a :=
  List.take_left' h

theorem drop_parts (a b : Bytes) (n m : Nat) (h : a.length = n) : (a ++ b).drop (n + m) = b.drop m := by
  rw [← List.drop_drop, List.drop_left' h]

section
variable {P : Params} {r : Nat}

/-- What is left of a signature behind its layers: bytes of the buffer that no layer fills,
then the message. -/
def tailOf (P : Params) (idx : Nat) (R root m : Bytes) (k : Nat) : Bytes :=
  (zeros (P.signBytes - P.pl - 3 * P.n) ++ msgPrefix P R root idx ++ m).drop k

theorem prefix_len (idx : Nat) (R root : Bytes) (hR : R.length = P.n) (hroot : root.length = P.n) :
    (msgPrefix P R root idx).length = P.pl + 3 * P.n := by
  simp only [msgPrefix, List.length_append, toBytes_len, List.length_take]
  omega

/-- The signature, byte for byte. -/
theorem signWith_eq (hW : Wf P) (hr : ∀ x, (P.hash x).length = r) (idx : Nat)
    (ixb s1 s2 s3 root m : Bytes) (h0 : ixb.length = P.ib)
    (h1 : s1.length = P.n) (h2 : s2.length = P.n) (h3 : s3.length = P.n)
    (h4 : root.length = P.n) :
    signWith P (ixb ++ (s1 ++ (s2 ++ (s3 ++ root)))) idx m =
      ixb ++ (prf P (zeros P.n) s2 (toBytes idx 32) ++
        ((signLayers P s1 s3 P.d 0 idx (cp (zeros P.n) (core P
          (msgPrefix P (prf P (zeros P.n) s2 (toBytes idx 32)) root idx ++ m)))
          (zeros P.n) (Addr.ofType 0)).1 ++
        tailOf P idx (prf P (zeros P.n) s2 (toBytes idx 32)) root m
          (P.ib + P.n + P.d * (P.wotsLen + P.th * P.n)))) := by
  have e0 : (ixb ++ (s1 ++ (s2 ++ (s3 ++ root)))).take P.ib = ixb := List.take_left' h0
  have e1 : ((ixb ++ (s1 ++ (s2 ++ (s3 ++ root)))).drop P.ib).take P.n = s1 := by
    rw [List.drop_left' h0, List.take_left' h1]
  have e2 : ((ixb ++ (s1 ++ (s2 ++ (s3 ++ root)))).drop (P.ib + P.n)).take P.n = s2 := by
    rw [drop_parts _ _ _ _ h0, List.drop_left' h1, List.take_left' h2]
  have e3 : ((ixb ++ (s1 ++ (s2 ++ (s3 ++ root)))).drop (P.ib + 2 * P.n)).take P.n = s3 := by
    rw [drop_parts _ _ _ _ h0, show 2 * P.n = P.n + P.n by omega, drop_parts _ _ _ _ h1,
      List.drop_left' h2, List.take_left' h3]
  have e4 : ((ixb ++ (s1 ++ (s2 ++ (s3 ++ root)))).drop (P.ib + 3 * P.n)).take P.n = root := by
    rw [drop_parts _ _ _ _ h0, show 3 * P.n = P.n + (P.n + P.n) by omega, drop_parts _ _ _ _ h1,
      drop_parts _ _ _ _ h2, List.drop_left' h3, List.take_of_length_le (by omega)]
  have hR : (prf P (zeros P.n) s2 (toBytes idx 32)).length = P.n :=
    (Z_prf hr (Z_zeros P r) _ _).1
  unfold signWith
  simp only []
  rw [e0, e1, e2, e3, e4]
  generalize prf P (zeros P.n) s2 (toBytes idx 32) = R at hR
  have hpre := prefix_len idx R root hR h4
  generalize hpx : msgPrefix P R root idx = px at hpre
  have hroom := hW.room
  have hsb : P.signBytes = P.ib + P.n + P.d * P.wotsLen + P.d * (P.h * P.n) := rfl
  generalize hoff : P.signBytes - P.pl - 3 * P.n = off
  have hoff' : off + (P.pl + 3 * P.n) = P.signBytes := by omega
  have hoff2 : P.ib + P.n ≤ off := by omega
  have b0 : put (zeros (P.signBytes + m.length)) P.signBytes m = zeros P.signBytes ++ m := by
    rw [put_in _ _ _ (by simp [zeros])]
    simp [zeros]
  have b1 : put (zeros P.signBytes ++ m) 0 ixb = ixb ++ (zeros (P.signBytes - P.ib) ++ m) := by
    rw [put_in _ _ _ (by simp [zeros]; omega)]
    rw [List.take_zero, List.nil_append, Nat.zero_add, h0,
      List.drop_append_of_le_length (by simp [zeros]; omega)]
    simp [zeros]
  have b2 : put (ixb ++ (zeros (P.signBytes - P.ib) ++ m)) P.ib R =
      ixb ++ (R ++ (zeros (P.signBytes - P.ib - P.n) ++ m)) := by
    rw [put_in _ _ _ (by simp [zeros]; omega)]
    rw [List.take_left' h0, hR, drop_parts _ _ _ _ h0,
      List.drop_append_of_le_length (by simp [zeros]; omega)]
    simp [zeros]
  have b3 : put (ixb ++ (R ++ (zeros (P.signBytes - P.ib - P.n) ++ m))) off px =
      ixb ++ (R ++ (zeros (off - P.ib - P.n) ++ (px ++ m))) := by
    rw [put_in _ _ _ (by simp [zeros]; omega)]
    obtain ⟨q, hq⟩ : ∃ q, off = P.ib + (P.n + q) := ⟨off - P.ib - P.n, by omega⟩
    have t1 : (ixb ++ (R ++ (zeros (P.signBytes - P.ib - P.n) ++ m))).take off =
        ixb ++ (R ++ zeros q) := by
      rw [List.take_append, List.take_of_length_le (by omega), h0]
      rw [List.take_append, List.take_of_length_le (by omega), hR]
      rw [List.take_append_of_le_length (by simp [zeros]; omega)]
      simp only [zeros, List.take_replicate]
      congr 3; omega
    have t2 : (ixb ++ (R ++ (zeros (P.signBytes - P.ib - P.n) ++ m))).drop (off + px.length) = m := by
      rw [hpre, hoff']
      rw [show P.signBytes = P.ib + (P.n + (P.signBytes - P.ib - P.n)) by omega]
      rw [drop_parts _ _ _ _ h0, drop_parts _ _ _ _ hR]
      apply List.drop_left'
      simp [zeros]
    rw [t1, t2, show off - P.ib - P.n = q by omega]
    simp [List.append_assoc]
  rw [b0, b1, b2, b3]
  have b4 : (ixb ++ (R ++ (zeros (off - P.ib - P.n) ++ (px ++ m)))).drop off = px ++ m := by
    rw [show off = P.ib + (P.n + (off - P.ib - P.n)) by omega]
    rw [drop_parts _ _ _ _ h0, drop_parts _ _ _ _ hR]
    apply List.drop_left'
    simp [zeros]
  rw [b4]
  have hZr : Z P r (cp (zeros P.n) (core P (px ++ m))) := Z_cp hr (Z_zeros P r) _
  have hl := (layers_eq P s1 s3 hr hW.th P.d 0 idx (cp (zeros P.n) (core P (px ++ m)))
    (zeros P.n) (Addr.ofType 0) hZr (Z_zeros P r) rfl).1
  generalize (signLayers P s1 s3 P.d 0 idx (cp (zeros P.n) (core P (px ++ m)))
    (zeros P.n) (Addr.ofType 0)).1 = b at hl
  have hbl : b.length ≤ P.d * P.wotsLen + P.d * (P.h * P.n) := by
    rw [hl, Nat.mul_add]
    have : P.d * (P.th * P.n) ≤ P.d * (P.h * P.n) := by
      apply Nat.mul_le_mul_left
      apply Nat.mul_le_mul_right
      exact Nat.div_le_self _ _
    omega
  rw [put_in _ _ _ (by simp [zeros]; omega)]
  have t3 : (ixb ++ (R ++ (zeros (off - P.ib - P.n) ++ (px ++ m)))).take (P.ib + P.n) =
      ixb ++ R := by
    rw [← List.append_assoc]
    apply List.take_left'
    simp [h0, hR]
  have t4 : (ixb ++ (R ++ (zeros (off - P.ib - P.n) ++ (px ++ m)))).drop (P.ib + P.n + b.length) =
      tailOf P idx R root m (P.ib + P.n + P.d * (P.wotsLen + P.th * P.n)) := by
    unfold tailOf
    rw [hpx, hoff, ← hl]
    rw [Nat.add_assoc P.ib, drop_parts _ _ _ _ h0, drop_parts _ _ _ _ hR]
    have : zeros off = zeros (P.ib + P.n) ++ zeros (off - P.ib - P.n) := by
      simp only [zeros, List.replicate_append_replicate]
      congr 1; omega
    rw [this, List.append_assoc, List.append_assoc, ← Nat.add_assoc, drop_parts]
    simp [zeros]
  rw [t3, t4]
  simp [List.append_assoc]

theorem signBytes_ge (hW : Wf P) :
    P.ib + P.n + P.d * (P.wotsLen + P.th * P.n) ≤ P.signBytes := by
  have : P.d * (P.th * P.n) ≤ P.d * (P.h * P.n) := by
    apply Nat.mul_le_mul_left
    apply Nat.mul_le_mul_right
    exact Nat.div_le_self _ _
  have hsb : P.signBytes = P.ib + P.n + P.d * P.wotsLen + P.d * (P.h * P.n) := rfl
  rw [hsb, Nat.mul_add]
  omega

theorem tail_drop (hW : Wf P) (idx : Nat) (R root m : Bytes) (hR : R.length = P.n)
    (hroot : root.length = P.n) (k : Nat) (hk : k ≤ P.signBytes) :
    (tailOf P idx R root m k).length = P.signBytes - k + m.length ∧
    (tailOf P idx R root m k).drop (P.signBytes - k) = m := by
  have hpre := prefix_len idx R root hR hroot
  have hroom := hW.room
  have hsb : P.signBytes = P.ib + P.n + P.d * P.wotsLen + P.d * (P.h * P.n) := rfl
  unfold tailOf
  constructor
  · simp only [List.length_drop, List.length_append, zeros, List.length_replicate, hpre]; omega
  · rw [List.drop_drop, show k + (P.signBytes - k) = P.signBytes by omega]
    apply List.drop_left'
    simp only [List.length_append, zeros, List.length_replicate, hpre]; omega

/-- `Verify` accepts a signature made by the key, whatever the buffer `m'` holds. -/
theorem verify_signWith (hW : Wf P) (hr : ∀ x, (P.hash x).length = r) (idx : Nat)
    (hidx : idx < 2 ^ P.h) (ixb s1 s2 s3 root m m' : Bytes) (h0 : ixb.length = P.ib)
    (hix : fromBytes ixb = idx)
    (h1 : s1.length = P.n) (h2 : s2.length = P.n) (h3 : s3.length = P.n)
    (h4 : root = node P s1 s3 (P.d - 1) 0 P.th 0) (hm : m'.length = P.signBytes + m.length) :
    ∃ out, verify P (root ++ s3) m' (signWith P (ixb ++ (s1 ++ (s2 ++ (s3 ++ root)))) idx m) =
        .ok (true, out) ∧ out.length = m'.length ∧
      out.drop P.signBytes = (tailOf P idx (prf P (zeros P.n) s2 (toBytes idx 32)) root m
          (P.ib + P.n + P.d * (P.wotsLen + P.th * P.n))).take m.length := by
  have hZroot : Z P r root := by rw [h4]; exact Z_node P s1 s3 _ _ hr _ _
  have h4l := hZroot.1
  rw [signWith_eq hW hr idx ixb s1 s2 s3 root m h0 h1 h2 h3 h4l]
  have hR : (prf P (zeros P.n) s2 (toBytes idx 32)).length = P.n :=
    (Z_prf hr (Z_zeros P r) _ _).1
  generalize prf P (zeros P.n) s2 (toBytes idx 32) = R at hR
  have hpre := prefix_len idx R root hR h4l
  have hZm : Z P r (cp (zeros P.n) (core P (msgPrefix P R root idx ++ m))) :=
    Z_cp hr (Z_zeros P r) _
  obtain ⟨l1, l2, l3⟩ := layers_eq P s1 s3 hr hW.th P.d 0 idx
    (cp (zeros P.n) (core P (msgPrefix P R root idx ++ m)))
    (zeros P.n) (Addr.ofType 0) hZm (Z_zeros P r) rfl
  have hge := signBytes_ge hW
  obtain ⟨tl, td⟩ := tail_drop hW idx R root m hR h4l _ hge
  have hk : (P.ib + P.n + P.d * (P.wotsLen + P.th * P.n)) ≤ P.signBytes := hge
  generalize hb : signLayers P s1 s3 P.d 0 idx
    (cp (zeros P.n) (core P (msgPrefix P R root idx ++ m))) (zeros P.n) (Addr.ofType 0) = b at *
  generalize hkk : P.ib + P.n + P.d * (P.wotsLen + P.th * P.n) = kk at *
  generalize htt : tailOf P idx R root m kk = tt at *
  have hb2 : b.2 = root := by
    rw [l2 hW.d, h4]
    congr 1
    · omega
    · rw [Nat.mul_comm, hW.hd]; exact Nat.div_eq_of_lt hidx
  have hlen : (ixb ++ (R ++ (b.1 ++ tt))).length = P.signBytes + m.length := by
    simp only [List.length_append, h0, hR, l1, tl]; omega
  have hdropS : (ixb ++ (R ++ (b.1 ++ tt))).drop P.signBytes = m := by
    rw [show P.signBytes = P.ib + (P.n + (P.d * (P.wotsLen + P.th * P.n) + (P.signBytes - kk))) by
      omega]
    rw [drop_parts _ _ _ _ h0, drop_parts _ _ _ _ hR, drop_parts _ _ _ _ l1]
    exact td
  have hroom := hW.room
  have hsb : P.signBytes = P.ib + P.n + P.d * P.wotsLen + P.d * (P.h * P.n) := rfl
  unfold verify
  rw [if_neg (by rw [hlen]; omega), if_neg (by simp only [List.length_append]; omega),
    if_neg (by omega)]
  simp only []
  have g1 : (ixb ++ (R ++ (b.1 ++ tt))).take P.ib = ixb := List.take_left' h0
  have g2 : ((ixb ++ (R ++ (b.1 ++ tt))).drop P.ib).take P.n = R := by
    rw [List.drop_left' h0, List.take_left' hR]
  have g3 : (ixb ++ (R ++ (b.1 ++ tt))).drop (P.ib + P.n) = b.1 ++ tt := by
    rw [drop_parts _ _ _ _ h0, List.drop_left' hR]
  have g4 : (root ++ s3).take P.n = root := List.take_left' h4l
  have g5 : (root ++ s3).drop P.n = s3 := List.drop_left' h4l
  rw [g1, g2, g3, g4, g5, hdropS, hix]
  generalize hoff : P.signBytes - P.pl - 3 * P.n = off
  have m1 : put m' P.signBytes m = m'.take P.signBytes ++ m := by
    rw [put_in _ _ _ (by omega), List.drop_of_length_le (by omega), List.append_nil]
  have hpl : off + (msgPrefix P R root idx).length = P.signBytes := by rw [hpre]; omega
  have m2 : put (m'.take P.signBytes ++ m) off (msgPrefix P R root idx) =
      m'.take off ++ (msgPrefix P R root idx ++ m) := by
    rw [put_in _ _ _ (by simp only [List.length_append, List.length_take]; omega), hpl]
    have u1 : (m'.take P.signBytes ++ m).take off = m'.take off := by
      rw [List.take_append_of_le_length (by rw [List.length_take]; omega), List.take_take]
      congr 1; omega
    have u2 : (m'.take P.signBytes ++ m).drop P.signBytes = m :=
      List.drop_left' (by rw [List.length_take]; omega)
    rw [u1, u2, List.append_assoc]
  rw [m1, m2]
  have m3 : (m'.take off ++ (msgPrefix P R root idx ++ m)).drop off = msgPrefix P R root idx ++ m :=
    List.drop_left' (by rw [List.length_take]; omega)
  rw [m3, l3 tt (Addr.ofType 0) (Addr.ofType 1) (Addr.ofType 2) rfl rfl rfl rfl]
  simp only []
  rw [if_pos hb2]
  refine ⟨_, rfl, ?_, ?_⟩
  · rw [put_len]
    simp only [List.length_append, List.length_take]; omega
  · have u3 : (m'.take off ++ (msgPrefix P R root idx ++ m)).drop P.signBytes = m := by
      rw [← hpl]
      rw [drop_parts _ _ off _ (by rw [List.length_take]; omega)]
      exact List.drop_left' rfl
    have u4 : ((m'.take off ++ (msgPrefix P R root idx ++ m)).take P.signBytes).length =
        P.signBytes := by
      simp only [List.length_append, List.length_take]; omega
    unfold put
    rw [List.drop_left' u4, u3]
    unfold cp
    rw [List.drop_of_length_le (by rw [tl]; omega), List.append_nil]

end

end Verif.Xmss
