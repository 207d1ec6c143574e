import Verif.Sm2.EncProps
/-
C131: the key exchange of SM2 (gm/sm2/keyexchange.go, gm/sm2/key_exchange.go).  The specification is GB/T 32918.3.
-/
namespace Verif.Sm2
open Verif.Cipher Verif.Kdf Verif.Pub Verif.Pub.Dh Verif.Asn1

namespace Spec

/-- `2^w + (x & (2^w - 1))`. -/
def hat (w x : Nat) : Nat := 2 ^ w + x % 2 ^ w

/-- The shared point of the side with the numbers `d` and `r`, with the static point `P` and the ephemeral point `R` of the other side. -/
def shared (c : C) (w d r : Nat) (P R : c.α) : c.α := ((d + hat w (c.x (r • c.G)) * r) % c.N) • (P + hat w (c.x R) • R)

/-- The key of `n` bytes from the shared point and the identity values of the two sides. -/
def kexKey (c : C) (H : HashFn) (U : c.α) (zA zB : Bytes) (n : Nat) : Bytes := Kdf.Spec.smKdf H.f H.size ((xy c U).1 ++ (xy c U).2 ++ zA ++ zB) n

def confInput (c : C) (U : c.α) (zA zB : Bytes) (RA RB : c.α) : Bytes := (xy c U).1 ++ zA ++ zB ++ (xy c RA).1 ++ (xy c RA).2 ++ (xy c RB).1 ++ (xy c RB).2

/-- The confirmation hashes: `pre` is 2 for `S1` (sent by B) and 3 for `S2` (sent by A). -/
def conf (c : C) (H : HashFn) (pre : Byte) (U : c.α) (zA zB : Bytes) (RA RB : c.α) : Bytes := H.f ([pre] ++ (xy c U).2 ++ H.f (confInput c U zA zB RA RB))

end Spec

theorem avf_eq (c : C) (x : Nat) : avf c x = Spec.hat (w c) x := by
  rw [avf, Spec.hat, Nat.and_comm, Nat.and_two_pow_sub_one_eq_mod]

theorem kex_key (H : HashFn) (z : Bytes) (n : Nat) (h : Spec.Fits H n) : SmKdf.key H z (n : Nat) = .ok (Kdf.Spec.smKdf H.f H.size z n) := by
  rw [C87_smkdf H h.1 _ n h.2.1, if_pos h.2.2]

/-- What `mqv` computes. -/
theorem mqv_eq (c : C) (ke : Ke) (P R : c.α) (hs : ke.secret = pubOf c (ke.r • c.G)) (hp : ke.peerSecret = pubOf c R) :
    mqv c ke (pubOf c P) = .ok { ke with v := pubOf c (Spec.shared c (w c) ke.priv.D ke.r P R) } := by
  rw [mqv, hs, hp]
  simp only [pubOf, point_pubOf, bind, Res.bind, avf_eq, Curve.mult_eq, Spec.shared]
  rw [Nat.add_comm (_ * _)]

theorem keSign_eq (c : C) (H : HashFn) (ke : Ke) (U S R : c.α) (resp : Bool) (pre : Byte) (hv : ke.v = pubOf c U) (hs : ke.secret = pubOf c S) (hp : ke.peerSecret = pubOf c R) :
    keSign c H ke resp pre = .ok (if resp then Spec.conf c H pre U ke.peerZ ke.z R S else Spec.conf c H pre U ke.z ke.peerZ S R) := by
  rw [keSign, hv, hs, hp]
  simp only [pubOf, toBytes_x, toBytes_y, bind, Res.bind]
  cases resp <;> rfl

theorem keKey_eq (c : C) (H : HashFn) (ke : Ke) (U : c.α) (resp : Bool) (n : Nat) (hf : Spec.Fits H n) (hn : ke.keyLen = n) (hv : ke.v = pubOf c U) :
    keKey c H ke resp = .ok (if resp then Spec.kexKey c H U ke.peerZ ke.z n else Spec.kexKey c H U ke.z ke.peerZ n) := by
  rw [keKey, hv, hn]
  simp only [pubOf, toBytes_x, toBytes_y, bind, Res.bind]
  rw [kex_key H _ n hf]
  cases resp <;> simp [Spec.kexKey, Spec.xy]

/-- The zero point has the coordinates `(0, 0)`, and no other has. -/
theorem pubOf_zero (c : C) (a : c.α) : ((pubOf c a).X = 0 ∧ (pubOf c a).Y = 0) ↔ a = 0 := by
  constructor
  · rintro ⟨h1, h2⟩
    have := point_pubOf c a
    rw [point, if_pos ⟨h1, h2⟩, Res.ok.injEq] at this
    exact this.symm
  · rintro rfl; exact ⟨c.x_zero, c.y_zero⟩

/-- C131. Both sides compute the same point, for all keys and ephemeral numbers. -/
theorem C131_shared (c : C) (w a b r s : Nat) :
    Spec.shared c w a r (b • c.G) (s • c.G) = Spec.shared c w b s (a • c.G) (r • c.G) ∧
    Spec.shared c w a r (b • c.G) (s • c.G) = ((a + Spec.hat w (c.x (r • c.G)) * r) * (b + Spec.hat w (c.x (s • c.G)) * s)) • c.G := by
  have e : ∀ a b r s : Nat, Spec.shared c w a r (b • c.G) (s • c.G) = ((a + Spec.hat w (c.x (r • c.G)) * r) * (b + Spec.hat w (c.x (s • c.G)) * s)) • c.G := by
    intro a b r s
    rw [Spec.shared, smul_smul, ← add_smul, smul_smul]
    apply c.smul_congr
    rw [Nat.cast_mul, Nat.cast_mul, ZMod.natCast_mod]
  refine ⟨?_, e a b r s⟩
  rw [e a b r s, e b a s r, Nat.mul_comm]

/-- C131. The initiator, with whatever point the other side sent: an error unless the point is on the curve, the shared point is not the neutral element and the confirmation is absent or the
right one. -/
theorem C131_initiator (c : C) (H : HashFn) (ke : Ke) (P : c.α) (hpeer : ke.peerPub = some (pubOf c P)) (n : Nat) (hf : Spec.Fits H n) (hn : ke.keyLen = n) (r : Nat) (sB : Bytes) :
    (∀ X Y, isOnCurve c X Y = false → keConfirmResponder c H (keInit c ke r).1 ⟨X, Y⟩ sB = .err) ∧
    ∀ R : c.α, R ≠ 0 → keConfirmResponder c H (keInit c ke r).1 (pubOf c R) sB =
      (let U := Spec.shared c (w c) ke.priv.D r P R
       if U ≠ 0 ∧ (sB = [] ∨ sB = Spec.conf c H 2#8 U ke.z ke.peerZ (r • c.G) R) then
         .ok (Spec.kexKey c H U ke.z ke.peerZ n, if ke.gen then some (Spec.conf c H 3#8 U ke.z ke.peerZ (r • c.G) R) else none) else .err) := by
  constructor
  · intro X Y h
    rw [keConfirmResponder, keInit]
    simp only [hpeer]
    rw [if_pos h]
  · intro R hR
    rw [keConfirmResponder, keInit]
    simp only [hpeer, Curve.baseMult_eq]
    rw [show isOnCurve c (pubOf c R).X (pubOf c R).Y = true by rw [pubOf, isOnCurve_pubOf]; simpa using hR, if_neg (by simp), mqv_eq c _ P R rfl rfl]
    simp only [bind, Res.bind]
    generalize hU : Spec.shared c (w c) ke.priv.D r P R = U
    by_cases h0 : U = 0
    · rw [if_pos ((pubOf_zero c U).2 h0), if_neg (by simp [h0])]
    rw [if_neg (by rw [pubOf_zero]; exact h0), keSign_eq c H _ U (r • c.G) R false _ rfl rfl rfl]
    simp only [Bool.false_eq_true, if_false]
    by_cases hs : sB = [] ∨ sB = Spec.conf c H 2#8 U ke.z ke.peerZ (r • c.G) R
    · rw [if_neg, if_pos ⟨h0, hs⟩]
      · rw [keKey_eq c H _ U false n hf (by exact hn) rfl]
        simp only [Bool.false_eq_true, if_false]
        cases hg : ke.gen with
        | false => simp
        | true =>
          simp only [Bool.true_eq_false, if_false, if_true]
          rw [keSign_eq c H _ U (r • c.G) R false _ rfl rfl rfl]; rfl
      · rintro ⟨hl, hne⟩
        rcases hs with rfl | rfl
        · simp at hl
        · exact hne rfl
    · rw [if_pos ⟨List.length_pos_of_ne_nil (by tauto), fun h => hs (.inr h.symm)⟩, if_neg (by tauto)]

/-- C131. The responder, with whatever point the other side sent: an error unless the point is on the curve and the shared point is not the neutral element.  Then the key is derived unless a
confirmation is given that is not the right one. -/
theorem C131_responder (c : C) (H : HashFn) (ke : Ke) (P : c.α) (hpeer : ke.peerPub = some (pubOf c P)) (n : Nat) (hf : Spec.Fits H n) (hn : ke.keyLen = n) (r : Nat) :
    (∀ X Y, isOnCurve c X Y = false → keRespond c H ke ⟨X, Y⟩ r = .err) ∧
    ∀ R : c.α, R ≠ 0 → (let U := Spec.shared c (w c) ke.priv.D r P R
      (U = 0 → keRespond c H ke (pubOf c R) r = .err) ∧
      (U ≠ 0 → ∃ ke', keRespond c H ke (pubOf c R) r = .ok (ke', pubOf c (r • c.G), if ke.gen then some (Spec.conf c H 2#8 U ke.peerZ ke.z R (r • c.G)) else none) ∧
        ∀ s, keConfirmInitiator c H ke' s = if s = none ∨ s = some (Spec.conf c H 3#8 U ke.peerZ ke.z R (r • c.G)) then .ok (Spec.kexKey c H U ke.peerZ ke.z n) else .err)) := by
  constructor
  · intro X Y h
    rw [keRespond]
    simp only [hpeer]
    rw [if_pos h]
  · intro R hR U
    have hb : keRespond c H ke (pubOf c R) r = (if U = 0 then .err else
        .ok ({ ke with peerSecret := pubOf c R, secret := pubOf c (r • c.G), r := r, v := pubOf c U }, pubOf c (r • c.G),
          if ke.gen then some (Spec.conf c H 2#8 U ke.peerZ ke.z R (r • c.G)) else none)) := by
      rw [keRespond]
      simp only [hpeer, Curve.baseMult_eq]
      rw [show isOnCurve c (pubOf c R).X (pubOf c R).Y = true by rw [pubOf, isOnCurve_pubOf]; simpa using hR, if_neg (by simp), mqv_eq c _ P R rfl rfl]
      simp only [bind, Res.bind]
      change (if (pubOf c U).X = 0 ∧ (pubOf c U).Y = 0 then _ else _) = _
      by_cases h0 : U = 0
      · rw [if_pos ((pubOf_zero c U).2 h0), if_pos h0]
      rw [if_neg (by rw [pubOf_zero]; exact h0), if_neg h0]
      cases hg : ke.gen with
      | false => simp [U]
      | true =>
        simp only [Bool.true_eq_false, if_false, if_true]
        rw [keSign_eq c H _ U (r • c.G) R true _ rfl rfl rfl]; rfl
    refine ⟨fun h => by rw [hb, if_pos h], fun h => ⟨_, by rw [hb, if_neg h], fun s => ?_⟩⟩
    cases s with
    | none =>
      rw [keConfirmInitiator, if_pos (.inl rfl)]
      rw [keKey_eq c H _ U true n hf (by exact hn) rfl]; rfl
    | some s =>
      rw [keConfirmInitiator]
      rw [keSign_eq c H _ U (r • c.G) R true _ rfl rfl rfl, keKey_eq c H _ U true n hf (by exact hn) rfl]
      simp only [bind, Res.bind, if_true]
      by_cases hs : s = Spec.conf c H 3#8 U ke.peerZ ke.z R (r • c.G)
      · rw [if_neg (by rw [hs]; simp), if_pos (.inr (by rw [hs]))]
      · rw [if_pos (fun h => hs h.symm), if_neg (by simp [hs])]

/-- C131. The whole exchange: with two key pairs and any ephemeral numbers for which the standard does not fail, both sides get the key of the standard, each takes the confirmation of the other,
and refuses any other one. -/
theorem C131_agreement (c : C) (H : HashFn) (a b : Priv) (ha : a.pub = pubOf c (a.D • c.G)) (hb : b.pub = pubOf c (b.D • c.G)) (uidA uidB zA zB : Bytes)
    (hA : calculateZA c H a.pub (if uidA.length = 0 then defaultUID else uidA) = .ok zA) (hB : calculateZA c H b.pub (if uidB.length = 0 then defaultUID else uidB) = .ok zB)
    (n : Nat) (hf : Spec.Fits H n) (gA gB : Bool) (r s : Nat) (hr : ¬ c.N ∣ r) (hs : ¬ c.N ∣ s) (U : c.α) (hU : U = Spec.shared c (w c) a.D r (b.D • c.G) (s • c.G)) (h0 : U ≠ 0) :
    ∃ A B B', newKe c H a (some b.pub) uidA uidB n gA = .ok A ∧ newKe c H b (some a.pub) uidB uidA n gB = .ok B ∧ (keInit c A r).2 = pubOf c (r • c.G) ∧
      keRespond c H B (pubOf c (r • c.G)) s = .ok (B', pubOf c (s • c.G), if gB then some (Spec.conf c H 2#8 U zA zB (r • c.G) (s • c.G)) else none) ∧
      (∀ sB, keConfirmResponder c H (keInit c A r).1 (pubOf c (s • c.G)) sB = if sB = [] ∨ sB = Spec.conf c H 2#8 U zA zB (r • c.G) (s • c.G) then
        .ok (Spec.kexKey c H U zA zB n, if gA then some (Spec.conf c H 3#8 U zA zB (r • c.G) (s • c.G)) else none) else .err) ∧
      ∀ sA, keConfirmInitiator c H B' sA = if sA = none ∨ sA = some (Spec.conf c H 3#8 U zA zB (r • c.G) (s • c.G)) then .ok (Spec.kexKey c H U zA zB n) else .err := by
  have hr' : r • c.G ≠ 0 := fun h => hr ((c.order r).1 h)
  have hs' : s • c.G ≠ 0 := fun h => hs ((c.order s).1 h)
  have nA : newKe c H a (some b.pub) uidA uidB n gA = .ok ⟨gA, n, a, zA, some b.pub, zB, 0, ⟨0, 0⟩, ⟨0, 0⟩, ⟨0, 0⟩⟩ := by
    rw [newKe, hA]; simp only [bind, Res.bind]; rw [hB]
  have nB : newKe c H b (some a.pub) uidB uidA n gB = .ok ⟨gB, n, b, zB, some a.pub, zA, 0, ⟨0, 0⟩, ⟨0, 0⟩, ⟨0, 0⟩⟩ := by
    rw [newKe, hB]; simp only [bind, Res.bind]; rw [hA]
  have i := C131_initiator c H ⟨gA, n, a, zA, some b.pub, zB, 0, ⟨0, 0⟩, ⟨0, 0⟩, ⟨0, 0⟩⟩ (b.D • c.G) (by rw [hb]) n hf rfl r
  obtain ⟨B', h1, h2⟩ := ((C131_responder c H ⟨gB, n, b, zB, some a.pub, zA, 0, ⟨0, 0⟩, ⟨0, 0⟩, ⟨0, 0⟩⟩ (a.D • c.G) (by rw [ha]) n hf rfl s).2 _ hr').2
    (by rw [← (C131_shared c _ a.D b.D r s).1, ← hU]; exact h0)
  simp only at h1 h2
  rw [← (C131_shared c _ a.D b.D r s).1, ← hU] at h1
  refine ⟨_, _, B', nA, nB, by rw [keInit]; simp, h1, fun sB => ?_, fun sA => ?_⟩
  · rw [(i sB).2 _ hs']
    simp only
    rw [← hU]
    simp only [h0, ne_eq, not_false_eq_true, true_and]
  · rw [h2 sA, ← (C131_shared c _ a.D b.D r s).1, ← hU]

/-! ### The exchange in one call -/

theorem natBytes_drop_mod (x : Nat) : setBytes ((natBytes x).drop ((natBytes x).length - 16)) = x % 2 ^ 128 := by
  by_cases h : (natBytes x).length ≤ 16
  · rw [Nat.sub_eq_zero_of_le h, List.drop_zero, setBytes_natBytes, Nat.mod_eq_of_lt]
    have := setBytes_lt (natBytes x)
    rw [setBytes_natBytes] at this
    exact Nat.lt_of_lt_of_le this (Nat.le_trans (Nat.pow_le_pow_right (by decide) h) (by decide))
  · have e := setBytes_append ((natBytes x).take ((natBytes x).length - 16)) ((natBytes x).drop ((natBytes x).length - 16))
    rw [List.take_append_drop, setBytes_natBytes, List.length_drop, show (natBytes x).length - ((natBytes x).length - 16) = 16 by omega] at e
    have l := setBytes_lt ((natBytes x).drop ((natBytes x).length - 16))
    rw [List.length_drop, show (natBytes x).length - ((natBytes x).length - 16) = 16 by omega] at l
    conv_rhs => rw [e]
    rw [show (2 : Nat) ^ 128 = 256 ^ 16 by decide, Nat.mul_comm, Nat.mul_add_mod, Nat.mod_eq_of_lt l]

theorem setBytes_replicate (n : Nat) (b : Bytes) : setBytes (List.replicate n 0#8 ++ b) = setBytes b := by
  induction n with
  | zero => rfl
  | succ n ih =>
    rw [List.replicate_succ, List.cons_append, ← List.singleton_append, setBytes_append, ih, show setBytes [0#8] = 0 by decide, Nat.zero_mul, Nat.zero_add]

theorem modify_replicate (n : Nat) (d : Bytes) (f : Byte → Byte) : (List.replicate n 0#8 ++ d).modify n f = List.replicate n 0#8 ++ d.modify 0 f := by
  induction n with
  | zero => rfl
  | succ n ih => rw [List.replicate_succ, List.cons_append, List.cons_append, List.modify_succ_cons, ih]

/-- C131. The number made from a coordinate is that of the standard, `2^127 + (x mod 2^127)`, for every number. -/
theorem C131_hat (x : Nat) : xHat x = Spec.hat 127 x := by
  have key : ∀ buf : Bytes, buf.length ≥ 16 → setBytes ((List.replicate (buf.length - 16) 0#8 ++ buf.drop (buf.length - 16)).modify (buf.length - 16) (· &&& 0x7f#8)) =
      setBytes (buf.drop (buf.length - 16)) % 2 ^ 127 := by
    intro buf hl
    have hd : (buf.drop (buf.length - 16)).length = 16 := by rw [List.length_drop]; omega
    generalize buf.drop (buf.length - 16) = d at hd ⊢
    obtain ⟨t, d', rfl⟩ : ∃ t d', d = t :: d' := by
      cases d with
      | nil => simp at hd
      | cons t d' => exact ⟨t, d', rfl⟩
    rw [modify_replicate, List.modify_zero_cons, setBytes_replicate, ← List.singleton_append, ← List.singleton_append (x := t), setBytes_append, setBytes_append]
    have hl' : d'.length = 15 := by simpa using hd
    have lt := setBytes_lt d'
    rw [hl'] at lt ⊢
    have e1 : setBytes [t &&& 0x7f#8] = t.toNat % 128 := by
      have : ∀ t : Byte, setBytes [t &&& 0x7f#8] = t.toNat % 128 := by decide +kernel
      exact this t
    have e2 : setBytes [t] = t.toNat := by
      have : ∀ t : Byte, setBytes [t] = t.toNat := by decide +kernel
      exact this t
    rw [e1, e2]
    have := t.isLt
    norm_num at lt ⊢
    omega
  rw [xHat, Spec.hat, Nat.add_comm]
  congr 1
  have hm : x % 2 ^ 127 = x % 2 ^ 128 % 2 ^ 127 := by norm_num
  rw [hm, ← natBytes_drop_mod]
  have hlen : (List.replicate ((natBytes x).length - 16) 0#8 ++ (natBytes x).drop ((natBytes x).length - 16)).length = (natBytes x).length := by
    rw [List.length_append, List.length_replicate, List.length_drop]; omega
  simp only [hlen]
  by_cases h : (natBytes x).length ≥ 16
  · rw [if_pos h, key _ h]
  · rw [if_neg h, setBytes_replicate, Nat.mod_eq_of_lt]
    have h15 : (natBytes x).length - 16 = 0 := by omega
    rw [h15, List.drop_zero]
    exact Nat.lt_of_lt_of_le (setBytes_lt _) (Nat.le_trans (Nat.pow_le_pow_right (by decide) (show (natBytes x).length ≤ 15 by omega)) (by decide))

/-- What the one call computes with points of the curve. -/
theorem keyExchange_eq (c : C) (H : HashFn) (klen : Int) (ida idb : Bytes) (pri rpri : Priv) (hr : rpri.pub = pubOf c (rpri.D • c.G)) (P R : c.α) (hR : R ≠ 0) (isA : Bool) :
    keyExchange c H klen ida idb pri (pubOf c P) rpri (pubOf c R) isA = (do
      let za ← calculateZA c H (if isA then pri.pub else pubOf c P) ida
      let zb ← (match calculateZA c H (if isA then pubOf c P else pri.pub) idb with
        | .ok z => .ok z
        | .err => .ok []
        | e => e)
      let U := Spec.shared c 127 pri.D rpri.D P R
      let k ← SmKdf.key H (natBytes (c.x U) ++ natBytes (c.y U) ++ za ++ zb) klen
      if allZero k then .err else
      let a := natBytes (c.x R) ++ natBytes (c.y R)
      let b := natBytes (c.x (rpri.D • c.G)) ++ natBytes (c.y (rpri.D • c.G))
      let hash := H.f (natBytes (c.x U) ++ za ++ zb ++ (if isA then a ++ b else b ++ a))
      .ok (k, H.f ([0x02#8] ++ natBytes (c.y U) ++ hash), H.f ([0x03#8] ++ natBytes (c.y U) ++ hash))) := by
  rw [keyExchange, hr]
  simp only [C131_hat]
  rw [show isOnCurve c (pubOf c R).X (pubOf c R).Y = true by rw [pubOf, isOnCurve_pubOf]; simpa using hR, if_neg (by simp)]
  simp only [pubOf, point_pubOf, Curve.mult_eq, bind, Res.bind, Spec.shared]
  rfl

/-- C131. The one call: for all keys, identities and ephemeral keys, both sides get the same key and the same two confirmations (or the same error). -/
theorem C131_one_call (c : C) (H : HashFn) (klen : Int) (ida idb : Bytes) (a b ra rb : Priv) (ha : a.pub = pubOf c (a.D • c.G)) (hb : b.pub = pubOf c (b.D • c.G))
    (hra : ra.pub = pubOf c (ra.D • c.G)) (hrb : rb.pub = pubOf c (rb.D • c.G)) (h1 : ¬ c.N ∣ ra.D) (h2 : ¬ c.N ∣ rb.D) :
    keyExchange c H klen ida idb a b.pub ra rb.pub true = keyExchange c H klen ida idb b a.pub rb ra.pub false := by
  have hr' : ra.D • c.G ≠ 0 := fun h => h1 ((c.order _).1 h)
  have hs' : rb.D • c.G ≠ 0 := fun h => h2 ((c.order _).1 h)
  rw [hb, hrb, keyExchange_eq c H klen ida idb a ra hra _ _ hs' true, ha, hra, keyExchange_eq c H klen ida idb b rb hrb _ _ hr' false, (C131_shared c 127 a.D b.D ra.D rb.D).1]
  simp only [ha, hb, if_true, Bool.false_eq_true, if_false]

/-- C131, in part. The one call gives the key of the standard when the group has 256 bits and no coordinate of the shared point begins with a zero byte.  Missing: the points that do (the
coordinates are then written with fewer bytes). -/
theorem C131_one_call_key_partial (c : C) (H : HashFn) (n : Nat) (hf : Spec.Fits H n) (ida idb zA zB : Bytes) (a ra : Priv) (hra : ra.pub = pubOf c (ra.D • c.G)) (P R : c.α) (hR : R ≠ 0)
    (hA : calculateZA c H a.pub ida = .ok zA) (hB : calculateZA c H (pubOf c P) idb = .ok zB) (hN : bitLen c.N = 256) (U : c.α) (hU : U = Spec.shared c (w c) a.D ra.D P R)
    (hx1 : byteLen (c.x U) = c.plen) (hy1 : byteLen (c.y U) = c.plen) :
    (∀ k s1 s2, keyExchange c H n ida idb a (pubOf c P) ra (pubOf c R) true = .ok (k, s1, s2) → k = Spec.kexKey c H U zA zB n) ∧
    (keyExchange c H n ida idb a (pubOf c P) ra (pubOf c R) true = .err ↔ ∀ x ∈ Spec.kexKey c H U zA zB n, x = 0#8) := by
  have hw : w c = 127 := by rw [w, hN]
  rw [keyExchange_eq c H n ida idb a ra hra P R hR true]
  simp only [if_true, hA, hB, bind, Res.bind]
  rw [← hw, ← hU, kex_key H _ n hf, natBytes, natBytes, hx1, hy1]
  simp only
  have e : Kdf.Spec.smKdf H.f H.size (hx c.plen (c.x U) ++ hx c.plen (c.y U) ++ zA ++ zB) n = Spec.kexKey c H U zA zB n := rfl
  rw [e]
  by_cases hz : allZero (Spec.kexKey c H U zA zB n) = true
  · rw [if_pos hz]
    exact ⟨fun _ _ _ h => (by cases h), fun _ => (allZero_iff _).1 hz, fun _ => rfl⟩
  · rw [if_neg hz]
    refine ⟨fun k s1 s2 h => ?_, fun h => (by cases h), fun h => absurd ((allZero_iff _).2 h) hz⟩
    simp only [Res.ok.injEq, Prod.mk.injEq] at h
    exact h.1.symm

/-- C131. Disagreement: the confirmations of the one call hash the ephemeral point of B before that of A, where the standard (and the interface with a state) has A before B; the octets hashed are
the same only if the two points are. -/
theorem C131_order_violated (c : C) (H : HashFn) (n : Nat) (ida idb zA zB : Bytes) (a ra : Priv) (hra : ra.pub = pubOf c (ra.D • c.G)) (P R : c.α) (hR : R ≠ 0)
    (hA : calculateZA c H a.pub ida = .ok zA) (hB : calculateZA c H (pubOf c P) idb = .ok zB) (U : c.α) (hU : U = Spec.shared c 127 a.D ra.D P R)
    (hx1 : byteLen (c.x U) = c.plen) (hy1 : byteLen (c.y U) = c.plen) (hx2 : byteLen (c.x R) = c.plen) (hy2 : byteLen (c.y R) = c.plen)
    (hx3 : byteLen (c.x (ra.D • c.G)) = c.plen) (hy3 : byteLen (c.y (ra.D • c.G)) = c.plen) :
    (∀ k s1 s2, keyExchange c H n ida idb a (pubOf c P) ra (pubOf c R) true = .ok (k, s1, s2) →
      s1 = Spec.conf c H 2#8 U zA zB R (ra.D • c.G) ∧ s2 = Spec.conf c H 3#8 U zA zB R (ra.D • c.G)) ∧
    (Spec.confInput c U zA zB R (ra.D • c.G) = Spec.confInput c U zA zB (ra.D • c.G) R → R = ra.D • c.G) := by
  constructor
  · intro k s1 s2
    rw [keyExchange_eq c H n ida idb a ra hra P R hR true]
    simp only [if_true, hA, hB, bind, Res.bind]
    rw [← hU, natBytes, natBytes, natBytes, natBytes, natBytes, natBytes, hx1, hy1, hx2, hy2, hx3, hy3]
    intro h
    split at h
    · split at h
      · cases h
      simp only [Res.ok.injEq, Prod.mk.injEq] at h
      obtain ⟨_, rfl, rfl⟩ := h
      simp [Spec.conf, Spec.confInput, Spec.xy]
    all_goals cases h
  · intro h
    simp only [Spec.confInput, List.append_assoc] at h
    have h := List.append_cancel_left h
    have h := List.append_cancel_left h
    have h := List.append_cancel_left h
    obtain ⟨e1, h⟩ := List.append_inj h (by rw [(xy_length ..).1, (xy_length ..).1])
    obtain ⟨e2, _⟩ := List.append_inj h (by rw [(xy_length ..).2, (xy_length ..).2])
    have e1 := congrArg setBytes e1
    have e2 := congrArg setBytes e2
    simp only [Spec.xy] at e1 e2
    rw [setBytes_hx _ _ (Nat.lt_of_lt_of_le (c.x_lt _) c.P_le), setBytes_hx _ _ (Nat.lt_of_lt_of_le (c.x_lt _) c.P_le)] at e1
    rw [setBytes_hx _ _ (Nat.lt_of_lt_of_le (c.y_lt _) c.P_le), setBytes_hx _ _ (Nat.lt_of_lt_of_le (c.y_lt _) c.P_le)] at e2
    have p1 := point_pubOf c R
    rw [e1, e2, point_pubOf, Res.ok.injEq] at p1
    exact p1.symm

/-- C131. Disagreement: the one call does not stop when the shared point is the neutral element: the key is then derived from the two identity values alone, which are public. -/
theorem C131_infinite_violated (c : C) (H : HashFn) (n : Nat) (hf : Spec.Fits H n) (ida idb zA zB : Bytes) (a ra : Priv) (hra : ra.pub = pubOf c (ra.D • c.G)) (P R : c.α) (hR : R ≠ 0)
    (hA : calculateZA c H a.pub ida = .ok zA) (hB : calculateZA c H (pubOf c P) idb = .ok zB) (hU : Spec.shared c 127 a.D ra.D P R = 0)
    (hg : ∃ x ∈ Kdf.Spec.smKdf H.f H.size (zA ++ zB) n, x ≠ 0#8) :
    ∃ s1 s2, keyExchange c H n ida idb a (pubOf c P) ra (pubOf c R) true = .ok (Kdf.Spec.smKdf H.f H.size (zA ++ zB) n, s1, s2) := by
  rw [keyExchange_eq c H n ida idb a ra hra P R hR true]
  simp only [if_true, hA, hB, bind, Res.bind]
  rw [hU, c.x_zero, c.y_zero, show natBytes 0 = [] by decide, List.nil_append, List.nil_append, kex_key H _ n hf]
  simp only
  rw [if_neg]
  · exact ⟨_, _, rfl⟩
  · rw [allZero_iff]
    push Not
    exact hg

/-- C131. Disagreement: in the one call an identity of B that is too long is not an error: all of them count as the same, and as absent. -/
theorem C131_long_id_violated (c : C) (H : HashFn) (klen : Int) (ida idb idb' : Bytes) (a ra : Priv) (hra : ra.pub = pubOf c (ra.D • c.G)) (P R : c.α) (hR : R ≠ 0)
    (h1 : 8192 ≤ idb.length) (h2 : 8192 ≤ idb'.length) :
    keyExchange c H klen ida idb a (pubOf c P) ra (pubOf c R) true = keyExchange c H klen ida idb' a (pubOf c P) ra (pubOf c R) true := by
  rw [keyExchange_eq c H klen ida idb a ra hra P R hR true, keyExchange_eq c H klen ida idb' a ra hra P R hR true]
  have e : ∀ i : Bytes, 8192 ≤ i.length → calculateZA c H (pubOf c P) i = .err := fun i h => by rw [calculateZA, if_pos h]
  simp only [if_true, e idb h1, e idb' h2]

/-! ### The hypotheses hold of a small curve -/

def toyKey' : Priv := ⟨pubOf toyC (4 • toyC.G), 4⟩

example : toyKey.pub = pubOf toyC (toyKey.D • toyC.G) ∧ toyKey'.pub = pubOf toyC (toyKey'.D • toyC.G) := by decide +kernel
example : Spec.shared toyC (w toyC) 2 3 (4 • toyC.G) (5 • toyC.G) ≠ 0 ∧ ¬ toyC.N ∣ 3 ∧ ¬ toyC.N ∣ 5 := by decide +kernel
example : ∃ zA zB, calculateZA toyC toyHash toyKey.pub defaultUID = .ok zA ∧ calculateZA toyC toyHash toyKey'.pub defaultUID = .ok zB ∧ zA ≠ zB := ⟨_, _, rfl, rfl, by decide +kernel⟩
example : ∃ d ∈ List.range 7, Spec.shared toyC 127 d 3 (4 • toyC.G) (5 • toyC.G) = 0 ∧ 1 ≤ d := by
  have : ∃ d ∈ List.range 7, toyC.N ∣ (d + Spec.hat 127 (toyC.x (3 • toyC.G)) * 3) * (4 + Spec.hat 127 (toyC.x (5 • toyC.G)) * 5) ∧ 1 ≤ d := by decide +kernel
  obtain ⟨d, h1, h2, h3⟩ := this
  exact ⟨d, h1, by rw [(C131_shared toyC 127 d 4 3 5).2]; exact (toyC.order _).2 h2, h3⟩
example : xHat (2 ^ 255 + 2 ^ 127 + 5) = 2 ^ 127 + 5 := by decide +kernel
example : byteLen (toyC.x (3 • toyC.G)) = toyC.plen ∧ byteLen (toyC.y (3 • toyC.G)) = toyC.plen := by decide +kernel

end Verif.Sm2
