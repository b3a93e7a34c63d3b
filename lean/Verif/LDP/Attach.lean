import Verif.LDP.Props
import Verif.Verifiable.PresMarshalProps
/-!
# Adding proofs to credentials and presentations, DID documents (C86, C87)

verifiable/linked_data_proof.go:82-120, credential_ldp.go, presentation_ldp.go,
data_integrity_proof.go:31-110, did_ldp.go:80-150.

Simplified: a credential's map holds plain JSON values (`PCred`).
-/

namespace VC.LDP

open VC.Proof VC.Vfy GoMap

/-! ## Model -/

variable {T : Type} (env : Env T)

/-- `LinkedDataProofContext`, linked_data_proof.go:31-44. -/
structure PCtx (T : Type) where
  sigType : String
  keyType : KeyType
  repr : SigRepr
  created : Option T
  vm : String
  challenge : String
  domain : String
  purpose : String
  capChain : List Json

/-- `mapContext`, linked_data_proof.go:99-111. -/
def mapContext (c : PCtx T) : Ctx T where
  sigType := c.sigType
  creator := ""
  keyType := c.keyType
  repr := c.repr
  created := c.created
  domain := c.domain
  nonce := []
  vm := c.vm
  challenge := c.challenge
  purpose := c.purpose
  capChain := c.capChain

/-- `addLinkedDataProof`, linked_data_proof.go:82-97: the map as it is afterwards and the proofs, or
an error. -/
def addLinked (c : Creator) (ctx : PCtx T) (doc : JObj) : JObj × Option (List JObj) :=
  match sign env c (mapContext ctx) doc with
  | none => (doc, none)
  | some doc' => (doc', parseLDProof (.json (JObj.at doc' "proof")))

/-- `Credential.AddLinkedDataProof`, credential_ldp.go:14-22: the credential as it is afterwards, and
whether the call succeeded. -/
def addToCred {S : Type} (c : Creator) (ctx : PCtx T) (vc : PCred S) : PCred S × Bool :=
  match addLinked env c ctx vc.json with
  | (json, none) => ({ vc with json := json }, false)
  | (json, some ps) => ({ vc with json := json, proofs := ps }, true)

/-- `Credential.ResetProofs`, credential_ldp.go:25-28. -/
def resetProofs {S : Type} (vc : PCred S) (ps : List JObj) : PCred S :=
  { vc with json := set vc.json "proof" (proofsToRaw ps), proofs := ps }

/-- `Presentation.AddLinkedDataProof`, presentation_ldp.go:16-30; `u` writes the credentials. -/
def addToPres {S : Type} (u : PCred S → Option Json) (c : Creator) (ctx : PCtx T) (vp : Pres S) :
    Option (Pres S) :=
  (rawPres u vp).bind fun raw =>
  (addLinked env c ctx raw).2.map fun ps => { vp with proofs := ps }

/-- `DataIntegrityProofContext`, data_integrity_proof.go:20-28. -/
structure DICtx (T : Type) where
  key : String
  purpose : String
  suite : String
  created : Option T
  expires : Option T
  domain : String
  challenge : String

/-- The options `addDataIntegrityProof` builds, data_integrity_proof.go:77-107. -/
def diOpts (di : DI.Env) (now : di.T) (c : DICtx di.T) : DI.Opts di.T where
  purpose := if c.purpose = "" then "assertionMethod" else c.purpose
  vmID := c.key
  vm := none
  proofType := "DataIntegrityProof"
  suiteType := c.suite
  domain := c.domain
  challenge := c.challenge
  created := c.created.getD now
  expires := c.expires.getD di.zeroT

/-- `addDataIntegrityProof`, data_integrity_proof.go:73-121. The proof is decoded into a map, so
anything but an object is an error (`null` and nothing: no proofs, which cannot happen here). -/
def addDI (di : DI.Env) (suites : GoMap (DI.Suite di)) (now : di.T) (c : DICtx di.T) (doc : JObj) :
    Option (List JObj) :=
  match DI.addProof di suites doc (diOpts di now c) with
  | .error _ => none
  | .ok doc' =>
    match JObj.at doc' "proof" with
    | .null => some []
    | .obj o => parseLDProof (.json (.obj o))
    | _ => none

/-- `Credential.AddDataIntegrityProof`, data_integrity_proof.go:31-50, for a credential without
envelope (the others are not JSON objects when written). -/
def addDIToCred {S : Type} (di : DI.Env) (suites : GoMap (DI.Suite di)) (now : di.T) (c : DICtx di.T)
    (vc : PCred S) : Option (PCred S) :=
  (addDI di suites now c (toRawJSON vc)).map fun ps =>
    if ps.isEmpty then { vc with proofs := ps }
    else { vc with json := set vc.json "proof" (proofsToRaw ps), proofs := ps }

/-- `Presentation.AddDataIntegrityProof`, data_integrity_proof.go:53-67, likewise. -/
def addDIToPres {S : Type} (u : PCred S → Option Json) (di : DI.Env) (suites : GoMap (DI.Suite di))
    (now : di.T) (c : DICtx di.T) (vp : Pres S) : Option (Pres S) :=
  (rawPres u vp).bind fun raw => (addDI di suites now c raw).map fun ps => { vp with proofs := ps }

/-- The options of `VerifyDIDProof`, did_ldp.go:20-25, 37-78: the checker, the Data Integrity check
(`checkDataIntegrityProof` with its options), whether invalid RDF is dropped, and the external
contexts written into the document. -/
structure DidOpts where
  checker : Option LdChecker
  dataIntegrity : JObj → Bool
  dropRDF : Bool
  contexts : JObj → JObj

/-- `VerifyDIDProof`, did_ldp.go:112-135 with `checkEmbeddedProof`, embedded_proof.go:46-88; the
document as `didToMap` (did_ldp.go:137-150) writes it. -/
def verifyDID (o : DidOpts) (doc : JObj) : Bool :=
  match JObj.at doc "proof" with
  | .null => false
  | el =>
    match getProofs el with
    | none => false
    | some ps =>
      if isDataIntegrity ps then o.dataIntegrity (o.contexts doc)
      else match o.checker with
      | none => false
      | some k => verifyObject env k o.dropRDF none (o.contexts doc)

/-! ## Specification -/

namespace Spec

/-- The elements of a `proof` member: nothing, one value, or an array. -/
inductive Entries : Option Json → List Json → Prop
  | absent : Entries none []
  | array {l} : Entries (some (.arr l)) l
  | one {j} : (∀ l, j ≠ .arr l) → Entries (some j) [j]

/-- A credential's proofs are those of its document. -/
def InSync {S : Type} (vc : PCred S) : Prop := Entries (get? vc.json "proof") (vc.proofs.map .obj)

/-- did-go's `AddProof` and `GetProofs` on the `proof` member. -/
structure ProofLib (env : Env T) : Prop extends LibOk env where
  /-- the new proof becomes the last element of an array -/
  entries : ∀ doc p doc' l, Entries (get? doc "proof") l → env.addProof doc p = some doc' →
    ∃ o, get? doc' "proof" = some (.arr (l ++ [.obj o]))
  /-- one proof is read like an array with that proof -/
  read : ∀ doc doc' l, l ≠ [] → Entries (get? doc "proof") l → Entries (get? doc' "proof") l →
    env.readProofs doc = env.readProofs doc'
  /-- an empty array has no proofs -/
  empty : ∀ doc, get? doc "proof" = some (.arr []) → env.readProofs doc = some []

end Spec

end VC.LDP
