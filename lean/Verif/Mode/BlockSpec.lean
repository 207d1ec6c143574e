import Verif.Mode.Blocks
/-
What the block modes compute, as recursions over the list of blocks (the defining equations of the modes).
-/
namespace Verif.Mode.Spec

/-- ECB: `c_i = E(p_i)`. -/
def ecb (E : Bytes → Bytes) (ps : List Bytes) : List Bytes := ps.map E

/-- PCBC: `c_i = E(p_i ⊕ p_{i-1} ⊕ c_{i-1})`, with `p_0 ⊕ c_0 = IV` (here `v`). -/
def pcbc (E : Bytes → Bytes) : Bytes → List Bytes → List Bytes
  | _, [] => []
  | v, p :: ps => let c := E (xorb p v); c :: pcbc E (xorb p c) ps

/-- BC (block chaining): `c_i = E(p_i ⊕ F_i)`, `F_1 = IV`, `F_{i+1} = F_i ⊕ c_i`. -/
def bc (E : Bytes → Bytes) : Bytes → List Bytes → List Bytes
  | _, [] => []
  | v, p :: ps => let c := E (xorb p v); c :: bc E (xorb v c) ps

/-- IGE: `c_i = E(p_i ⊕ c_{i-1}) ⊕ p_{i-1}` with IV `= c_0 ‖ p_0`. -/
def ige (E : Bytes → Bytes) : (c0 p0 : Bytes) → List Bytes → List Bytes
  | _, _, [] => []
  | c0, p0, p :: ps => let c := xorb (E (xorb p c0)) p0; c :: ige E c p ps

/-- GOST R 34.13-2015 CBC with a register of two blocks `r1 ‖ r2`: `c_i = E(p_i ⊕ r1)`, then the register
becomes `r2 ‖ c_i`. -/
def g3413cbc (E : Bytes → Bytes) : (r1 r2 : Bytes) → List Bytes → List Bytes
  | _, _, [] => []
  | r1, r2, p :: ps => let c := E (xorb p r1); c :: g3413cbc E r2 c ps

/-- OFB with a non-linear function: `k_i = E(k_{i-1})`, `k_0 = IV`, `c_i = E_{k_i}(p_i)`. -/
def ofbnlf (E : Bytes → Bytes) (Ek : Bytes → Bytes → Bytes) : Bytes → List Bytes → List Bytes
  | _, [] => []
  | v, p :: ps => let k := E v; Ek k p :: ofbnlf E Ek k ps

end Verif.Mode.Spec
