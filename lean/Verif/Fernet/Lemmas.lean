import Verif.Fernet.Model
import Verif.Fernet.Spec
import Verif.Padding.Props
/-
Helper lemmas for C116.
-/
namespace Verif.Fernet
open Verif.Mode Verif.Facade Verif.Padding Verif.Kdf Verif.Pub Verif.Cipher

theorem mapAcc_enc (c : BlockCipher) (v : Bytes) (bs : List Bytes) :
    (mapAcc (cbcEncF c) v bs).1 = Spec.cbcEnc c v bs := by
  induction bs generalizing v with
  | nil => rfl
  | cons b bs ih => simp [mapAcc, Spec.cbcEnc, cbcEncF, ih]

theorem mapAcc_dec (c : BlockCipher) (v : Bytes) (bs : List Bytes) :
    (mapAcc (cbcDecF c) v bs).1 = Spec.cbcDec c v bs := by
  induction bs generalizing v with
  | nil => rfl
  | cons b bs ih => simp [mapAcc, Spec.cbcDec, cbcDecF, ih]

theorem blkRun_enc (c : BlockCipher) (v x : Bytes) :
    (blkRun 16 (cbcEncF c) v x).1 = (Spec.cbcEnc c v (chunks 16 x)).flatten := by
  simp [blkRun, mapAcc_enc]

theorem blkRun_dec (c : BlockCipher) (v x : Bytes) :
    (blkRun 16 (cbcDecF c) v x).1 = (Spec.cbcDec c v (chunks 16 x)).flatten := by
  simp [blkRun, mapAcc_dec]

theorem enc_length (P : Prim) (k v x : Bytes) (hv : v.length = 16) (h : 16 ∣ x.length) :
    (blkRun 16 (cbcEncF (P.aes k)) v x).1.length = x.length := by
  have hb := P.aes_bs k
  refine blkRun_length 16 (by decide) _ (fun v => v.length = 16) ?_ x h v hv
  intro t b ht hl
  have := cbcEncF_len (P.aes k) t b (by omega) (by omega)
  rw [hb] at this
  exact this

theorem dec_length (P : Prim) (k v x : Bytes) (hv : v.length = 16) (h : 16 ∣ x.length) :
    (blkRun 16 (cbcDecF (P.aes k)) v x).1.length = x.length := by
  have hb := P.aes_bs k
  refine blkRun_length 16 (by decide) _ (fun v => v.length = 16) ?_ x h v hv
  intro t b ht hl
  have := cbcDecF_len (P.aes k) t b (by omega) (by omega)
  rw [hb] at this
  exact this

theorem cbc_rt (P : Prim) (k v x : Bytes) (hv : v.length = 16) (h : 16 ∣ x.length) :
    (blkRun 16 (cbcDecF (P.aes k)) v (blkRun 16 (cbcEncF (P.aes k)) v x).1).1 = x := by
  have hb := P.aes_bs k
  have := cbc_roundtrip (P.aes k) x v (by rw [hb]; exact h) (by omega)
  rwa [hb] at this

theorem pad_length (msg : Bytes) : (pkcs7Pad msg 16).length = msg.length / 16 * 16 + 16 := by
  simp [pkcs7Pad, padSize]
  omega

theorem hmac_len (P : Prim) (p k : Bytes) : (hmacHash P p k).length = 32 := by
  rw [hmacHash, Kdf.hmac_length, P.sha_size]

/-- The number of seconds written into the token. -/
def stamp (t : Time) : Nat := (t.unix % 2 ^ 64).toNat

theorem encryptM_eq (P : Prim) (msg iv : Bytes) (ts : Time) (k : Key) (hiv : iv.length = 16) :
    encryptM P (List.replicate (encodedLen msg.length) 0#8) msg iv ts k =
      .ok (Spec.token P.sha k.sign (stamp ts) iv
          (blkRun 16 (cbcEncF (P.aes k.crypt)) iv (pkcs7Pad msg 16)).1, encodedLen msg.length) := by
  have hp := pad_length msg
  obtain ⟨n, hn⟩ : ∃ n, n = msg.length / 16 * 16 + 16 := ⟨_, rfl⟩
  have hL : encodedLen msg.length = n + 57 := by simp [encodedLen, hn]
  rw [← hn] at hp
  have hd : 16 ∣ (pkcs7Pad msg 16).length := by rw [hp, hn]; omega
  have hc := enc_length P k.crypt iv (pkcs7Pad msg 16) hiv hd
  rw [hp] at hc
  obtain ⟨C, hC⟩ : ∃ C, C = (blkRun 16 (cbcEncF (P.aes k.crypt)) iv (pkcs7Pad msg 16)).1 := ⟨_, rfl⟩
  rw [← hC] at hc
  unfold encryptM
  rw [if_neg (by simp; omega)]
  have e1 : (version :: (List.replicate (encodedLen msg.length) 0#8).drop 1) = version :: List.replicate (n + 56) 0#8 := by
    rw [hL, List.drop_replicate]; rfl
  have e2 : ((version :: List.replicate (n + 56) 0#8).take 1 ++ hx 8 (ts.unix % 2 ^ 64).toNat ++
      (version :: List.replicate (n + 56) 0#8).drop 9) = (version :: hx 8 (stamp ts)) ++ List.replicate (n + 48) 0#8 := by
    rw [List.take_succ_cons, List.take_zero, List.drop_succ_cons, List.drop_replicate]; rfl
  have e3 : (((version :: hx 8 (stamp ts)) ++ List.replicate (n + 48) 0#8).take 9 ++
      copyInto (((version :: hx 8 (stamp ts)) ++ List.replicate (n + 48) 0#8).drop 9) iv) =
      (version :: hx 8 (stamp ts) ++ iv) ++ List.replicate (n + 32) 0#8 := by
    rw [List.take_left' (by simp), List.drop_left' (by simp)]
    simp only [copyInto, List.length_replicate, List.drop_replicate, hiv]
    rw [List.take_of_length_le (by omega)]
    simp
  have e4 : ((version :: hx 8 (stamp ts) ++ iv) ++ List.replicate (n + 32) 0#8).drop 25 = List.replicate (n + 32) 0#8 :=
    List.drop_left' (by simp [hiv])
  have e5 : ((version :: hx 8 (stamp ts) ++ iv) ++ List.replicate (n + 32) 0#8).take 25 = version :: hx 8 (stamp ts) ++ iv :=
    List.take_left' (by simp [hiv])
  have e6 : copyInto (List.replicate (n + 32) 0#8) (pkcs7Pad msg 16) = pkcs7Pad msg 16 ++ List.replicate 32 0#8 := by
    simp only [copyInto, List.length_replicate, List.drop_replicate, hp]
    rw [List.take_of_length_le (by omega)]
    simp
  simp only [e1, e2, e3, e4, e5, e6]
  rw [if_neg (by simp), List.take_left' rfl, List.drop_left' rfl, ← hC, hp]
  have hbl : (version :: hx 8 (stamp ts) ++ iv ++ C).length = 25 + n := by simp [hiv, hc]; omega
  rw [show version :: hx 8 (stamp ts) ++ iv ++ (C ++ List.replicate 32 0#8) =
    (version :: hx 8 (stamp ts) ++ iv ++ C) ++ List.replicate 32 0#8 by simp]
  rw [List.take_left' hbl, List.drop_left' hbl, copyInto_eq_left _ _ (by rw [hmac_len]; simp)]
  simp only [Spec.token, Spec.body, hmacHash, version, hL, List.cons_append, List.nil_append]
  congr 2
  omega

theorem token_length (sha : HashFn) (hs : sha.size = 32) (sk : Bytes) (s : Nat) (iv ct : Bytes) (hiv : iv.length = 16) :
    (Spec.token sha sk s iv ct).length = 57 + ct.length := by
  simp [Spec.token, Spec.body, hmac_length, hs, hiv]
  omega

theorem encryptWithTime_eq (P : Prim) (msg iv : Bytes) (ts : Time) (k : Key) (hiv : iv.length = 16) :
    encryptWithTime P msg k ts iv = .ok (b64enc true (Spec.token P.sha k.sign (stamp ts) iv
        (blkRun 16 (cbcEncF (P.aes k.crypt)) iv (pkcs7Pad msg 16)).1)) := by
  have hp := pad_length msg
  have hd : 16 ∣ (pkcs7Pad msg 16).length := by rw [hp]; omega
  have hc := enc_length P k.crypt iv (pkcs7Pad msg 16) hiv hd
  have hl := token_length P.sha P.sha_size k.sign (stamp ts) iv
    (blkRun 16 (cbcEncF (P.aes k.crypt)) iv (pkcs7Pad msg 16)).1 hiv
  have hL : encodedLen msg.length =
    57 + (blkRun 16 (cbcEncF (P.aes k.crypt)) iv (pkcs7Pad msg 16)).1.length := by
    rw [hc, hp, encodedLen]; omega
  unfold encryptWithTime
  simp only [encryptM_eq P msg iv ts k hiv, Res.bind_ok]
  rw [if_neg (by rw [hl]; omega), List.take_of_length_le (by rw [hl]; omega)]

/-! ### time -/

theorem wrap64_id {x : Int} (h1 : -(2 ^ 63) ≤ x) (h2 : x < 2 ^ 63) : wrap64 x = x := by
  unfold wrap64; omega

theorem wrap64_signed {u : Nat} (h : u < 2 ^ 64) : wrap64 u = Spec.signed64 u := by
  unfold wrap64 Spec.signed64
  split <;> omega

theorem addSec_spec (s d : Int) (h1 : -(2 ^ 63) ≤ s) (h2 : s < 2 ^ 63) (h3 : 0 ≤ d) (h4 : d < 2 ^ 63) :
    addSec s d = if s + d < 2 ^ 63 then s + d else 2 ^ 63 - 1 := by
  unfold addSec
  by_cases h : s + d < 2 ^ 63
  · rw [if_pos h, wrap64_id (by omega) h]
    simp only
    rw [if_pos (by rw [decide_eq_decide]; omega)]
  · rw [if_neg h]
    have : wrap64 (s + d) = s + d - 2 ^ 64 := by unfold wrap64; omega
    rw [this]
    simp only
    rw [if_neg (by rw [decide_eq_decide]; omega), if_pos (by omega)]

/-- The exact time in nanoseconds since 1970. -/
def Time.ns (t : Time) : Int := (t.sec - 62135596800) * 10 ^ 9 + t.nsec

/-- A clock reading between about -146 and +146 billion years. -/
def Time.Sane (t : Time) : Prop := -(2 ^ 62) ≤ t.sec ∧ t.sec ≤ 2 ^ 62 ∧ 0 ≤ t.nsec ∧ t.nsec < 10 ^ 9

theorem after_false (t u : Time) :
    t.after u = false ↔ ¬ (t.sec > u.sec ∨ (t.sec = u.sec ∧ t.nsec > u.nsec)) := by
  rw [Time.after, decide_eq_false_iff_not]

theorem timeBad_iff (ttl : Int) (now : Time) (u : Nat) (hu : u < 2 ^ 64) (hn : now.Sane) (ht : ttl < 2 ^ 63) :
    timeBad ttl now (Time.unixT (wrap64 u)) = false ↔ (ttl ≤ 0 ∨ Spec.InWindow ttl now.ns (Spec.signed64 u)) := by
  obtain ⟨n1, n2, n3, n4⟩ := hn
  by_cases h0 : ttl ≤ 0
  · have : ¬ ttl > 0 := by omega
    simp [timeBad, h0, this]
  have hp : ttl > 0 := by omega
  simp only [timeBad, hp, h0, decide_true, Bool.true_and, false_or, Bool.or_eq_false_iff]
  rw [wrap64_signed hu]
  have hs : -(2 ^ 63) ≤ Spec.signed64 u ∧ Spec.signed64 u < 2 ^ 63 := by
    unfold Spec.signed64; split <;> omega
  generalize Spec.signed64 u = s at hs ⊢
  -- ttl in seconds and nanoseconds
  have htd : ttl.tdiv 1000000000 = ttl / 1000000000 := Int.tdiv_eq_ediv_of_nonneg (by omega)
  have htm : ttl.tmod 1000000000 = ttl % 1000000000 := Int.tmod_eq_emod_of_nonneg (by omega)
  have hb : now.add maxClockSkew = ⟨now.sec + 60, now.nsec⟩ := by
    unfold Time.add maxClockSkew
    simp only
    rw [show (60 * 1000000000 : Int).tdiv 1000000000 = 60 by decide,
      show (60 * 1000000000 : Int).tmod 1000000000 = 0 by decide]
    rw [if_neg (by omega), if_neg (by omega), addSec_spec _ _ (by omega) (by omega) (by omega) (by omega),
      if_pos (by omega)]
    simp
  have ha : (Time.unixT s).add ttl = ⟨addSec (wrap64 (s + unixToInternal)) (ttl / 1000000000), ttl % 1000000000⟩ := by
    unfold Time.add Time.unixT
    simp only [htd, htm]
    rw [if_neg (by omega), if_neg (by omega)]
    simp
  rw [ha, hb, after_false, after_false]
  unfold Time.unixT Time.ns Spec.InWindow
  simp only [unixToInternal]
  by_cases hw : s + 62135596800 < 2 ^ 63
  · rw [wrap64_id (by omega) hw, addSec_spec _ _ (by omega) hw (by omega) (by omega)]
    by_cases hq : s + 62135596800 + ttl / 1000000000 < 2 ^ 63
    · rw [if_pos hq]; omega
    · rw [if_neg hq]; omega
  · have : wrap64 (s + 62135596800) = s + 62135596800 - 2 ^ 64 := by unfold wrap64; omega
    rw [this, addSec_spec _ _ (by omega) (by omega) (by omega) (by omega), if_pos (by omega)]
    omega

theorem stamp_lt (t : Time) : stamp t < 2 ^ 64 := by unfold stamp; omega

theorem stamp_signed (t : Time) (h1 : -(2 ^ 62) ≤ t.sec) (h2 : t.sec ≤ 2 ^ 62) :
    Spec.signed64 (stamp t) = t.sec - 62135596800 := by
  unfold stamp Time.unix unixToInternal
  rw [wrap64_id (by omega) (by omega)]
  unfold Spec.signed64
  split <;> omega

/-! ### decryption -/

theorem unpad_eq (p : Bytes) :
    unpad p = .ok none ∨ ∃ m, unpad p = .ok (some m) ∧ pkcs7Unpad p = .ok m := by
  unfold unpad
  by_cases hp : p = []
  · subst hp; left; rfl
  · have hc : pkcs7Unpad p = .err ∨ ∃ m, pkcs7Unpad p = .ok m := by
      rw [pkcs7Unpad_eq p hp]
      simp only
      split
      · left; rfl
      · split
        · right; exact ⟨_, rfl⟩
        · left; rfl
    rcases hc with hc | ⟨m, hc⟩
    · left; rw [hc]
    · right; exact ⟨m, by rw [hc], hc⟩

theorem unpad_some_iff (p m : Bytes) : unpad p = .ok (some m) ↔ pkcs7Unpad p = .ok m := by
  constructor
  · intro h
    rcases unpad_eq p with h' | ⟨m', h', h2⟩
    · rw [h'] at h; cases h
    · rw [h'] at h; cases h; exact h2
  · intro h; simp [unpad, h]

/-- `b` is a byte string whose last 32 bytes are the HMAC of the rest under the signing half of `k`. -/
def Auth (P : Prim) (k : Key) (b : Bytes) : Prop := ∃ x, b = x ++ Kdf.hmac P.sha k.sign x

theorem auth_iff (P : Prim) (k : Key) (b : Bytes) (h : 32 < b.length) :
    b.drop (b.length - 32) = hmacHash P (b.take (b.length - 32)) k.sign ↔ Auth P k b := by
  constructor
  · intro he
    refine ⟨b.take (b.length - 32), ?_⟩
    rw [hmacHash] at he
    rw [← he, List.take_append_drop]
  · rintro ⟨x, hx⟩
    have hl := Kdf.hmac_length P.sha k.sign x
    rw [P.sha_size] at hl
    have hxl : b.length - 32 = x.length := by rw [hx, List.length_append, hl]; omega
    rw [hxl, hx, List.drop_left' rfl, List.take_left' rfl, hmacHash]

/-- What one key does, in all cases. -/
theorem decryptM_cases (P : Prim) (tok : Bytes) (ttl : Int) (now : Time) (k : Key) :
    decryptM P tok ttl now k = .ok (none, tok) ∨
    (Auth P k tok ∧ 32 < tok.length ∧ tok.length < 57 ∧ decryptM P tok ttl now k = .panic) ∨
    (Auth P k tok ∧ 57 ≤ tok.length ∧ ∃ r tok', decryptM P tok ttl now k = .ok (r, tok') ∧ tok'.length = tok.length) := by
  unfold decryptM
  by_cases h1 : tok.length < 9 ∨ tok.head? ≠ some version
  · left; rw [if_pos h1]
  rw [if_neg h1]
  by_cases h2 : timeBad ttl now (tokTime tok) = true
  · left; rw [if_pos h2]
  rw [if_neg h2]
  by_cases h3 : tok.length ≤ 32
  · left; rw [if_pos h3]
  rw [if_neg h3]
  have ha := auth_iff P k tok (by omega)
  simp only
  by_cases h4 : tok.drop (tok.length - 32) = hmacHash P (tok.take (tok.length - 32)) k.sign
  · rw [if_neg (not_not.mpr h4)]
    by_cases h5 : tok.length - 32 < 25
    · right; left
      rw [if_pos h5]
      exact ⟨ha.mp h4, by omega, by omega, rfl⟩
    · rw [if_neg h5]
      by_cases h6 : ((tok.take (tok.length - 32)).drop 25).length % 16 ≠ 0
      · left; rw [if_pos h6]
      · rw [if_neg h6]
        right; right
        refine ⟨ha.mp h4, by omega, ?_⟩
        have hl := dec_length P k.crypt ((tok.drop 9).take 16) ((tok.take (tok.length - 32)).drop 25)
          (by simp; omega) (by omega)
        generalize (blkRun 16 (cbcDecF (P.aes k.crypt)) ((tok.drop 9).take 16) ((tok.take (tok.length - 32)).drop 25)).1
          = pay at hl ⊢
        have hl2 : (tok.take 25 ++ pay ++ tok.drop (tok.length - 32)).length = tok.length := by
          simp [hl]; omega
        rcases unpad_eq pay with hu | ⟨m, hu, -⟩
        · exact ⟨none, _, by rw [hu]; rfl, hl2⟩
        · exact ⟨some m, _, by rw [hu]; rfl, hl2⟩
  · left; rw [if_pos h4]

theorem decryptM_some_iff (P : Prim) (tok : Bytes) (ttl : Int) (now : Time) (k : Key) (m : Bytes) (hn : now.Sane)
    (ht : ttl < 2 ^ 63) :
    (∃ tok', decryptM P tok ttl now k = .ok (some m, tok')) ↔
      Spec.Valid P.sha P.aes k.sign k.crypt ttl now.ns tok m := by
  constructor
  · rintro ⟨tok', h⟩
    unfold decryptM at h
    by_cases h1 : tok.length < 9 ∨ tok.head? ≠ some version
    · rw [if_pos h1] at h; cases h
    rw [if_neg h1] at h
    by_cases h2 : timeBad ttl now (tokTime tok) = true
    · rw [if_pos h2] at h; cases h
    rw [if_neg h2] at h
    by_cases h3 : tok.length ≤ 32
    · rw [if_pos h3] at h; cases h
    rw [if_neg h3] at h
    simp only at h
    by_cases h4 : tok.drop (tok.length - 32) = hmacHash P (tok.take (tok.length - 32)) k.sign
    swap
    · rw [if_pos h4] at h; cases h
    rw [if_neg (not_not.mpr h4)] at h
    by_cases h5 : tok.length - 32 < 25
    · rw [if_pos h5] at h; cases h
    rw [if_neg h5] at h
    by_cases h6 : ((tok.take (tok.length - 32)).drop 25).length % 16 ≠ 0
    · rw [if_pos h6] at h; cases h
    rw [if_neg h6] at h
    rw [not_or, not_not] at h1
    obtain ⟨v, t, rfl⟩ : ∃ v t, tok = v :: t := by
      cases tok with
      | nil => simp at h3
      | cons v t => exact ⟨v, t, rfl⟩
    have hv : v = 0x80#8 := by simpa [version] using h1.2
    have hlt : 56 ≤ t.length := by simp at h5; omega
    obtain ⟨secs, hsecs⟩ : ∃ s, s = setBytes (t.take 8) := ⟨_, rfl⟩
    have hsl : secs < 2 ^ 64 := by
      have := setBytes_lt (t.take 8)
      rw [← hsecs, List.length_take, min_eq_left (by omega)] at this
      omega
    have hhx : hx 8 secs = t.take 8 := by
      have := hx_setBytes (t.take 8)
      rw [List.length_take, min_eq_left (by omega), ← hsecs] at this
      exact this
    have htt : tokTime (v :: t) = Time.unixT (wrap64 secs) := by simp [tokTime, hsecs]
    have hwin : ttl ≤ 0 ∨ Spec.InWindow ttl now.ns (Spec.signed64 secs) := by
      rw [← timeBad_iff ttl now secs hsl hn ht, ← htt]
      simpa using h2
    have hsplit : (v :: t).take ((v :: t).length - 32) =
        Spec.body secs (((v :: t).drop 9).take 16) (((v :: t).take ((v :: t).length - 32)).drop 25) := by
      rw [Spec.body, hhx, hv]
      generalize hX : (0x80#8 :: t).take ((0x80#8 :: t).length - 32) = X
      have hXl : 25 ≤ X.length := by rw [← hX]; simp; omega
      have a1 : X = X.take 25 ++ X.drop 25 := (List.take_append_drop 25 X).symm
      have a2 : X.take 25 = [0x80#8] ++ t.take 8 ++ ((0x80#8 :: t).drop 9).take 16 := by
        rw [← hX, List.take_take, min_eq_left (by simp; omega)]
        rw [show (25 : Nat) = 24 + 1 by rfl, List.take_succ_cons, List.drop_succ_cons]
        rw [show (24 : Nat) = 8 + 16 by rfl, List.take_add]
        simp
      rw [← a2, ← a1]
    have hpad : unpad (blkRun 16 (cbcDecF (P.aes k.crypt)) (((v :: t).drop 9).take 16)
        (((v :: t).take ((v :: t).length - 32)).drop 25)).1 = .ok (some m) := by
      rcases unpad_eq (blkRun 16 (cbcDecF (P.aes k.crypt)) (((v :: t).drop 9).take 16)
        (((v :: t).take ((v :: t).length - 32)).drop 25)).1 with hu | ⟨m', hu, -⟩
      · rw [hu] at h; cases h
      · rw [hu] at h
        simp only [Res.bind_ok] at h
        have := congrArg Prod.fst (Res.ok.inj h)
        simp only at this
        rw [hu, this]
    rw [unpad_some_iff, blkRun_dec] at hpad
    have hpk := ((C02_pkcs7_unpad_iff _).2 m).mp hpad
    refine ⟨secs, ((v :: t).drop 9).take 16, chunks 16 (((v :: t).take ((v :: t).length - 32)).drop 25),
      hsl, by simp; omega, ?_, ?_, hwin, hpk⟩
    · exact chunks_all_len 16 (by decide) _ (Nat.dvd_of_mod_eq_zero (by simpa using h6))
    · rw [chunks_flatten 16 (by decide), Spec.token, ← hsplit]
      have := h4
      rw [hmacHash] at this
      rw [← this, List.take_append_drop]
  · rintro ⟨secs, iv, blocks, hsl, hiv, hbl, rfl, hwin, hpad⟩
    have hct : 16 ∣ blocks.flatten.length := by
      clear hpad
      induction blocks with
      | nil => simp
      | cons b bs ih =>
        simp only [List.flatten_cons, List.length_append]
        exact Nat.dvd_add (by rw [hbl b (by simp)]) (ih (fun x hx => hbl x (by simp [hx])))
    have hch : chunks 16 blocks.flatten = blocks := by
      clear hpad
      induction blocks with
      | nil => rfl
      | cons b bs ih =>
        have hb := hbl b (by simp)
        have hne : b ++ bs.flatten ≠ [] := by
          intro h
          have := congrArg List.length h
          simp [hb] at this
        rw [List.flatten_cons, chunks_cons 16 (by decide) _ hne, List.take_left' hb, List.drop_left' hb,
          ih (fun x hx => hbl x (by simp [hx])) (by
            have := hct
            simp only [List.flatten_cons, List.length_append, hb] at this
            omega)]
    have hl := token_length P.sha P.sha_size k.sign secs iv blocks.flatten hiv
    have hbodyl : (Spec.body secs iv blocks.flatten).length = 25 + blocks.flatten.length := by
      simp [Spec.body, hiv]; omega
    have htk : (Spec.token P.sha k.sign secs iv blocks.flatten).take
        ((Spec.token P.sha k.sign secs iv blocks.flatten).length - 32) = Spec.body secs iv blocks.flatten := by
      rw [hl, Spec.token]
      exact List.take_left' (by rw [hbodyl]; omega)
    have hdr : (Spec.token P.sha k.sign secs iv blocks.flatten).drop
        ((Spec.token P.sha k.sign secs iv blocks.flatten).length - 32) = hmac P.sha k.sign (Spec.body secs iv blocks.flatten) := by
      rw [hl, Spec.token]
      exact List.drop_left' (by rw [hbodyl]; omega)
    have hiv2 : ((Spec.token P.sha k.sign secs iv blocks.flatten).drop 9).take 16 = iv := by
      rw [Spec.token, Spec.body, List.append_assoc, List.append_assoc, List.drop_left' (by simp), List.take_left' hiv]
    have hpay : (Spec.body secs iv blocks.flatten).drop 25 = blocks.flatten := by
      rw [Spec.body]; exact List.drop_left' (by simp [hiv])
    have htt : tokTime (Spec.token P.sha k.sign secs iv blocks.flatten) = Time.unixT (wrap64 secs) := by
      rw [tokTime, Spec.token, Spec.body, List.append_assoc, List.append_assoc, List.append_assoc,
        List.drop_left' (by simp), List.take_left' (by simp), setBytes_hx _ _ (by omega)]
    have htb := (timeBad_iff ttl now secs hsl hn ht).mpr hwin
    unfold decryptM
    simp only [htt, htk, hdr, hiv2, hpay]
    rw [if_neg (by rw [hl]; rw [not_or]; exact ⟨by omega, by simp [Spec.token, Spec.body, version]⟩),
      if_neg (by simp [htb]), if_neg (by rw [hl]; omega)]
    rw [if_neg (by simp [hmacHash]), if_neg (by rw [hl]; omega), if_neg (by omega), blkRun_dec, hch]
    have := ((C02_pkcs7_unpad_iff _).2 m).mpr hpad
    rw [← unpad_some_iff] at this
    exact ⟨_, by rw [this]; rfl⟩

end Verif.Fernet
