import Verif.Proof.Props
/-!
# Signature algorithm names (C85)

verifiable/common.go:33-122: the algorithm a key type is used with, for JWT and for COSE.
-/

namespace VC.LDP

open VC.Proof

/-- `JWSAlgorithm`, common.go:36-58, in the order of the constants. -/
inductive JwsAlg where
  | rs256 | ps256 | eddsa | secp256k1 | secp256r1 | secp384r1 | secp521r1
  | other (n : Int)
  deriving DecidableEq, Repr

/-- `KeyTypeToJWSAlgo`, common.go:59-78. -/
def keyTypeToJWS : KeyType → Option JwsAlg
  | .p256DER | .p256P1363 => some .secp256r1
  | .p384DER | .p384P1363 => some .secp384r1
  | .p521DER | .p521P1363 => some .secp521r1
  | .ed25519 => some .eddsa
  | .secp256k1P1363 | .secp256k1DER => some .secp256k1
  | .rsaRS256 => some .rs256
  | .rsaPS256 => some .ps256
  | _ => none

/-- `KeyTypeToCWSAlgo`, common.go:81-96 (the numbers are those of go-cose: ES256 -7, EdDSA -8,
ES384 -35, PS256 -37, RS256 -257). -/
def keyTypeToCWS : KeyType → Option Int
  | .p256DER | .p256P1363 => some (-7)
  | .p384DER | .p384P1363 => some (-35)
  | .ed25519 => some (-8)
  | .rsaRS256 => some (-257)
  | .rsaPS256 => some (-37)
  | _ => none

/-- `JWSAlgorithm.Name`, common.go:99-118. -/
def JwsAlg.name : JwsAlg → Option String
  | .rs256 => some "RS256"
  | .ps256 => some "PS256"
  | .eddsa => some "EdDSA"
  | .secp256k1 => some "ES256K"
  | .secp256r1 => some "ES256"
  | .secp384r1 => some "ES384"
  | .secp521r1 => some "ES521"
  | .other _ => none

/-- The name a JWT of a key is signed under. -/
def jwtName (kt : KeyType) : Option String := (keyTypeToJWS kt).bind JwsAlg.name

/-- The default checker's table `d` is for keys of the type. -/
def TableFor (d : JwtDesc) (kt : KeyType) : Prop := d ∈ defaultJwt ∧ ∃ m ∈ d.vms, m.keyType = kt

private theorem tableFor_iff (d : JwtDesc) (kt : KeyType) :
    TableFor d kt ↔ d ∈ defaultJwt.filter (fun d => d.vms.any (fun m => m.keyType == kt)) := by
  simp [TableFor, List.mem_filter]

/-- **C85** (JWT): the name a key type is signed under is the name of the checker's table for that key
type, of that table only; and a key type without a name has no table. -/
theorem jwt_alg_matches (kt : KeyType) (n : String) :
    jwtName kt = some n ↔ ∃ d, TableFor d kt ∧ d.alg = n := by
  cases kt <;>
    simp [tableFor_iff, defaultJwt, jwtName, keyTypeToJWS, JwsAlg.name, eddsaDesc, es256Desc, es256kDesc,
      es384Desc, es521Desc, rs256Desc, ps256Desc]

/-- **C85** (CWT): the COSE algorithm of a key type is the one of the checker's table for it, and the
checker finds that table by the algorithm. -/
theorem cwt_alg_matches (kt : KeyType) (a : Int) (h : keyTypeToCWS kt = some a) :
    ∃ d, TableFor d kt ∧ d.cwtAlg = a ∧ byCwtAlg defaultJwt a = some d ∧ a ≠ 0 := by
  cases kt <;> simp [keyTypeToCWS] at h <;> subst h <;>
    simp [tableFor_iff, defaultJwt, byCwtAlg, eddsaDesc, es256Desc, es256kDesc,
      es384Desc, es521Desc, rs256Desc, ps256Desc]

/-- The two agree: a key type with a COSE algorithm has a JWT name, and both lead to one table. -/
theorem jwt_cwt_agree (kt : KeyType) (a : Int) (h : keyTypeToCWS kt = some a) :
    ∃ n d, jwtName kt = some n ∧ byAlg defaultJwt n = some d ∧ byCwtAlg defaultJwt a = some d := by
  cases kt <;> simp [keyTypeToCWS] at h <;> subst h <;>
    simp [defaultJwt, jwtName, keyTypeToJWS, JwsAlg.name, byAlg, byCwtAlg, eddsaDesc, es256Desc, es256kDesc,
      es384Desc, es521Desc, rs256Desc, ps256Desc]

/-- **C85**: the names, spelled out; the ones of JOSE (RFC 7518, RFC 8037, RFC 8812) and COSE (RFC
9053, RFC 8812) except P-521, see `p521_name_not_registered`. -/
theorem names (kt : KeyType) (n : String) : jwtName kt = some n ↔
    (n = "ES256" ∧ (kt = .p256DER ∨ kt = .p256P1363)) ∨
    (n = "ES384" ∧ (kt = .p384DER ∨ kt = .p384P1363)) ∨
    (n = "ES521" ∧ (kt = .p521DER ∨ kt = .p521P1363)) ∨
    (n = "ES256K" ∧ (kt = .secp256k1DER ∨ kt = .secp256k1P1363)) ∨
    (n = "EdDSA" ∧ kt = .ed25519) ∨ (n = "RS256" ∧ kt = .rsaRS256) ∨ (n = "PS256" ∧ kt = .rsaPS256) := by
  cases kt <;> simp [jwtName, keyTypeToJWS, JwsAlg.name, eq_comm]

/-- The P-521 name is not the registered one, `ES512`, and no table of the checker knows that. -/
theorem p521_name_not_registered :
    jwtName .p521P1363 = some "ES521" ∧ byAlg defaultJwt "ES512" = none := ⟨rfl, rfl⟩

/-- P-521, secp256k1 and BLS keys have no COSE algorithm. -/
theorem no_cose (kt : KeyType) : keyTypeToCWS kt = none ↔
    kt = .p521DER ∨ kt = .p521P1363 ∨ kt = .secp256k1DER ∨ kt = .secp256k1P1363 ∨ kt = .bls12381g2 ∨
    ∃ n, kt = .other n := by
  cases kt <;> simp [keyTypeToCWS]

example : jwtName .p384DER = some "ES384" := rfl
example : jwtName (.other "X25519") = none := rfl
example : keyTypeToCWS .p256P1363 = some (-7) := rfl
example : TableFor es256Desc .p256DER := by simp [TableFor, defaultJwt, es256Desc]

end VC.LDP
