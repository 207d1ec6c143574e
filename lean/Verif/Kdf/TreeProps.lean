import Verif.Kdf.TreeLemmas
import Verif.Kdf.Instances
/-
C83: the GOST key trees (hash/gost/gost34112012256).
-/
namespace Verif.Kdf
open Verif.Cipher

/-- The key derivation function is RFC 7836's, for every hash. -/
theorem C83_kdf (H : HashFn) (key label seed : Bytes) : kdf H key label seed = Spec.kdf256 H key label seed := kdf_eq H key label seed

/-- Whatever the cache does, every call of every history on an ESP tree returns, without panic, the key of the uncached
tree for the index it was given, provided indices have five bytes and the caller does not write into the slices
`DeriveCached` returns. -/
theorem C83_esptree_every_history (H : HashFn) (hs : H.size = 32) (root : Bytes) (os : List (TreeOp Bytes))
    (h5 : ∀ is ∈ Esp.asked os, is.length = 5) (hq : ∀ o ∈ os, ∀ i b, o ≠ .scribble i b) :
    Esp.history H root os = .ok ((Esp.asked os).map fun is => (is, Spec.espKey H root is)) := by
  obtain ⟨t, e, g⟩ := Esp.new_good H root
  obtain ⟨t', e'⟩ := Esp.run_good H hs root os hq h5 t g
  simp only [Esp.history, e, Res.bind_ok, e']

/-- An index of another length panics. -/
theorem C83_esptree_bad_index (H : HashFn) (t : Esp.St) (is : Bytes) (h : is.length ≠ 5) :
    Esp.call H t (.derive is) = .panic ∧ Esp.call H t (.cached is) = .panic := by
  simp [Esp.call, Esp.deriveCached, h]

/-- Full claim for the TLS tree: every call of every history returns the key of the uncached tree.  Proved: for every
history whose first sequence number is zero or differs from zero under one of the masks, without writes into the slices
`DeriveCached` returns.  Missing, because it is false of the code: the two excluded cases, below. -/
theorem C83_tlstree_every_history_partial (H : HashFn) (hs : H.size = 32) (p : Tls.Params) (root : Bytes) (os : List (TreeOp (BitVec 64)))
    (hq : ∀ o ∈ os, ∀ i b, o ≠ .scribble i b)
    (h0 : ∀ n, (Esp.asked os).head? = some n → n = 0 ∨ n &&& p.m1 ≠ 0 ∨ n &&& p.m2 ≠ 0 ∨ n &&& p.m3 ≠ 0) :
    Tls.run H (Tls.new p root) os = (Esp.asked os).map fun n => (n, Spec.tlsKey H p.m1 p.m2 p.m3 root n) := by
  refine Tls.run_good H hs p root os hq (Tls.new p root) rfl (copy_id root) fun n hn hit => ?_
  obtain ⟨hpos, e1, e2, e3⟩ := hit
  simp only [Tls.new] at e1 e2 e3
  rcases h0 n hn with h | h | h | h
  · subst h; exact absurd hpos (by decide)
  · exact absurd (e1.trans (BitVec.zero_and)) h
  · exact absurd (e2.trans (BitVec.zero_and)) h
  · exact absurd (e3.trans (BitVec.zero_and)) h

/-- The flag of `DeriveCached` is true exactly when the three masked values are those of the sequence number of the
last derivation, except that zero is always derived anew. -/
theorem C83_tlstree_cached_flag (H : HashFn) (t : Tls.St) (n : BitVec 64) :
    (Tls.deriveCached H t n).2.2 = true ↔ (n ≠ 0 ∧ n &&& t.params.m1 = t.prev &&& t.params.m1 ∧ n &&& t.params.m2 = t.prev &&& t.params.m2 ∧
      n &&& t.params.m3 = t.prev &&& t.params.m3) := by
  have hp : n > 0 ↔ n ≠ 0 := by
    show (0 : BitVec 64) < n ↔ n ≠ 0
    rw [BitVec.lt_def, Ne, BitVec.toNat_eq]
    have : (0 : BitVec 64).toNat = 0 := rfl
    omega
  rw [← hp, Tls.deriveCached]
  split <;> simp_all

/-- A new TLS tree asked first for record 1 returns 32 zero bytes whatever the root key is: the cache of a new tree
counts as filled for sequence number zero.  This is so for five of the six parameter sets of the package. -/
theorem C83_tlstree_first_key_zero_violated (H : HashFn) (root : Bytes) (p : Tls.Params)
    (hp : p = Tls.magmaCTROMAC ∨ p = Tls.kuznyechikCTROMAC ∨ p = Tls.kuznyechikMGML ∨ p = Tls.magmaMGML ∨ p = Tls.kuznyechikMGMS) :
    Tls.run H (Tls.new p root) [.derive 1] = [(1, List.replicate 32 0)] := by
  have key : 1 &&& p.m1 = 0 &&& p.m1 ∧ 1 &&& p.m2 = 0 &&& p.m2 ∧ 1 &&& p.m3 = 0 &&& p.m3 := by
    rcases hp with h | h | h | h | h <;> subst h <;> decide
  have e : Tls.deriveCached H (Tls.new p root) 1 = ({ Tls.new p root with handed := true }, List.replicate 32 0#8, true) := by
    have c : (1 : BitVec 64) > 0 ∧ 1 &&& (Tls.new p root).params.m1 = (Tls.new p root).prev &&& (Tls.new p root).params.m1 ∧
        1 &&& (Tls.new p root).params.m2 = (Tls.new p root).prev &&& (Tls.new p root).params.m2 ∧
        1 &&& (Tls.new p root).params.m3 = (Tls.new p root).prev &&& (Tls.new p root).params.m3 := ⟨by decide, key⟩
    rw [Tls.deriveCached, if_pos c]; rfl
  simp only [Tls.run, Tls.call, e, derived_eq _ List.length_replicate, Option.toList]
  rfl

/-- The caller of `DeriveCached` can change the key that later calls return for the same record. -/
theorem C83_tlstree_alias_violated (H : HashFn) (hs : H.size = 32) (p : Tls.Params) (root : Bytes) (n : BitVec 64) (hn : n ≠ 0) :
    ∃ k, Tls.run H (Tls.new p root) [.derive 0, .derive n, .cached n, .scribble 0 (((Spec.tlsKey H p.m1 p.m2 p.m3 root n).getD 0 0) + 1), .derive n] =
      [(0, Spec.tlsKey H p.m1 p.m2 p.m3 root 0), (n, Spec.tlsKey H p.m1 p.m2 p.m3 root n), (n, Spec.tlsKey H p.m1 p.m2 p.m3 root n), (n, k)] ∧
      k ≠ Spec.tlsKey H p.m1 p.m2 p.m3 root n := by
  have hpos : n > 0 := by
    show (0 : BitVec 64) < n
    rw [BitVec.lt_def]
    have h0 : (0 : BitVec 64).toNat = 0 := rfl
    have : n.toNat ≠ 0 := fun h => hn (BitVec.eq_of_toNat_eq (by rw [h]; rfl))
    omega
  obtain ⟨g0, e0⟩ := Tls.deriveCached_good H p root (Tls.new p root) 0 rfl (copy_id root) (fun h => absurd h.1 (by decide))
  generalize hst0 : Tls.deriveCached H (Tls.new p root) 0 = r0 at g0 e0
  let t0 : Tls.St := { r0.1 with handed := (Tls.new p root).handed && r0.2.2 }
  obtain ⟨g1, e1⟩ := Tls.deriveCached_good H p root t0 n g0.params g0.rt (fun _ => g0.key)
  generalize hst1 : Tls.deriveCached H t0 n = r1 at g1 e1
  have hprev : r1.1.prev &&& p.m1 = n &&& p.m1 ∧ r1.1.prev &&& p.m2 = n &&& p.m2 ∧ r1.1.prev &&& p.m3 = n &&& p.m3 := by
    rw [← hst1, Tls.deriveCached]
    have ep : t0.params = p := g0.params
    rw [ep]
    split
    · rename_i h; exact ⟨h.2.1.symm, h.2.2.1.symm, h.2.2.2.symm⟩
    · exact ⟨rfl, rfl, rfl⟩
  have hitk (t : Tls.St) (hp : t.params = p) (hpv : t.prev = r1.1.prev) : Tls.deriveCached H t n = ({ t with handed := true }, t.key, true) := by
    rw [Tls.deriveCached, hp, hpv, if_pos ⟨hpos, hprev.1.symm, hprev.2.1.symm, hprev.2.2.symm⟩]
  have hk : r1.1.key = Spec.tlsKey H p.m1 p.m2 p.m3 root n := by
    rw [g1.key]; simp only [Tls.sKey, Spec.tlsKey, hprev.1, hprev.2.1, hprev.2.2]
  have hl := Tls.sKey_length H hs p root n
  generalize hK : Spec.tlsKey H p.m1 p.m2 p.m3 root n = K at *
  have hl' : K.length = 32 := by rw [← hK]; exact hl
  have hKK : Tls.sKey H p root n = K := hK
  rw [hKK] at e1
  obtain ⟨b, hb⟩ : ∃ b, b = K.getD 0 0 + 1 := ⟨_, rfl⟩
  rw [← hb]
  refine ⟨K.set 0 b, ?_, ?_⟩
  · simp only [Tls.run, Tls.call, hst0, e0, derived_eq _ (Tls.sKey_length H hs p root 0), Option.toList]
    show _ :: _ = _ :: _
    congr 1
    show ((n, derived (Tls.deriveCached H t0 n).2.1) :: _) = _
    rw [hst1, e1, derived_eq _ hl']
    congr 1
    rw [hitk { r1.1 with handed := t0.handed && r1.2.2 } g1.params rfl]
    simp only [hk, if_true, List.append_eq, List.nil_append]
    rw [hitk { r1.1 with handed := true, key := K.set 0 b } g1.params rfl]
    simp only
    rw [derived_eq _ (by simpa using hl')]
    rfl
  · intro h
    have h : b = K.getD 0 0 := by
      have := congrArg (fun l : Bytes => l.getD 0 0) h
      simp only [List.getD_eq_getElem?_getD] at this ⊢
      rw [List.getElem?_set_self (by rw [hl']; decide)] at this
      exact this
    · generalize K.getD 0 0 = a at h hb
      have : a + 1 = a := by rw [← hb, h]
      have := congrArg BitVec.toNat this
      rw [BitVec.toNat_add] at this
      have h1 : (1 : BitVec 8).toNat = 1 := rfl
      have := a.isLt
      omega

/-- The answer of the package's test for the KDF (which is that of RFC 7836, appendix B), with the package's hash. -/
def kdfTest : Bool := kdf fast256 (hx 32 0x000102030405060708090a0b0c0d0e0f101112131415161718191a1b1c1d1e1f) (hx 4 0x26bdb878) (hx 8 0xaf21434145656378) =
  hx 32 0xa1aa5f7de402d7b3d323f2991c8d4534013137010a83754fd0af6d7cd4922ed9

example : kdf streebog256 (hx 32 0x000102030405060708090a0b0c0d0e0f101112131415161718191a1b1c1d1e1f) (hx 4 0x26bdb878) (hx 8 0xaf21434145656378) =
    hx 32 0xa1aa5f7de402d7b3d323f2991c8d4534013137010a83754fd0af6d7cd4922ed9 := by
  rw [streebog256_fast]; exact of_decide_eq_true (show kdfTest = true by decide +kernel)

/-- The hypotheses of the history theorems, on histories that hit and miss the cache. -/
example : streebog256.size = 32 ∧ (∀ is ∈ Esp.asked [.derive [0, 0, 0, 0, 1], .cached [0, 0, 0, 0, 1], .derive [1, 0, 0, 0, 1]], is.length = 5) ∧
    (∀ n, (Esp.asked [TreeOp.derive (64 : BitVec 64), .cached 65, .derive 1]).head? = some n →
      n = 0 ∨ n &&& Tls.kuznyechikCTROMAC.m1 ≠ 0 ∨ n &&& Tls.kuznyechikCTROMAC.m2 ≠ 0 ∨ n &&& Tls.kuznyechikCTROMAC.m3 ≠ 0) := by
  refine ⟨rfl, by simp [Esp.asked], fun n hn => ?_⟩
  simp only [Esp.asked, List.head?_cons, Option.some.injEq] at hn
  subst hn; right; right; right; decide

end Verif.Kdf
