import Verif.Verifiable.Presentation
import Verif.Verifiable.ParseSpec
import Batteries.Data.List.Basic
/-!
# verifiable: presentations (specification)

What proof checking of a presentation establishes, and the holder rule, stated on the returned
presentation and the library parameters.
-/

namespace VC.Vfy.Spec

open GoMap
open VC.Vfy (VEnv VpOpts Pres PCred VpCwt LdPrf ParseOpts)
open VC.Proof (Bytes CwtReq LdProof)

variable (env : VEnv)

/-- The value of a string claim: absent and `null` are empty. -/
def Claim (p : JObj) (k s : String) : Prop :=
  get? p k = some (.str s) ∨ (s = "" ∧ (get? p k = none ∨ get? p k = some .null))

/-- The payload `p` of a JWT presentation stands for the presentation object `raw`: the members of the
`vp` claim, with the holder and the id overridden by `iss` and `jti`. -/
def FromClaims (p raw : JObj) : Prop :=
  ∃ iss jti m, Claim p "iss" iss ∧ Claim p "jti" jti ∧
    (get? p "vp" = some (.obj m) ∨
      (m = [] ∧ iss = "" ∧ jti = "" ∧ (get? p "vp" = none ∨ get? p "vp" = some .null))) ∧
    ∀ k, get? raw k =
      if k = "holder" ∧ iss ≠ "" then some (.str iss)
      else if k = "id" ∧ jti ≠ "" then some (.str jti)
      else get? m k

/-- A linked-data proof was checked for the DID of its own key. -/
def LdSelfSigned (pc : LdProof → String → Bytes → Bytes → Bool) (doc : JObj) (p : LdPrf) : Prop :=
  ∃ msg sig kid did, env.verifyData doc p = some msg ∧ env.verifyValue p = some sig ∧
    p.view.publicKeyID = some kid ∧ DidPart kid did ∧ pc p.view did msg sig = true

/-- What is established about the presentation object `raw` and how it was delivered. -/
inductive OwnProof (o : VpOpts env) (raw : JObj) (jwt : String) (cwt : Option VpCwt) : Prop
  /-- a JWS signed by a key of the DID in its own `kid`; the object is its payload -/
  | jws (pc : VC.Vfy.Combined) (j : JWT.Jws) (kid did : String) (p : JObj)
      (hw : cwt = none) (hc : o.checker = some pc) (hj : env.lib.parseJWS none jwt = some j)
      (hk : Proof.header j.headers "kid" = some kid) (hd : DidPart kid did)
      (hs : pc.jwt j.headers did j.signingInput j.signature = true)
      (hp : env.payloadObj j.payload = some p) (hr : FromClaims p raw)
  /-- embedded linked-data proofs -/
  | ld (l : List JObj) (pc : VC.Vfy.Combined) (ps : List LdPrf)
      (hn : jwt = "") (hw : cwt = none) (hp : ProofMember raw l) (hd : ¬ DIFirst l)
      (hc : o.checker = some pc) (hl : env.ldProofs (del raw "jwt") = some ps)
      (hs : ∀ p ∈ ps, LdSelfSigned env pc.ld (del raw "jwt") p)
  /-- embedded data integrity proofs -/
  | di (l : List JObj) (suites : GoMap (DI.Suite env.di))
      (hn : jwt = "") (hw : cwt = none) (hp : ProofMember raw l) (hd : DIFirst l)
      (hc : o.diVerifier = some suites)
      (hs : (DI.verifyProof env.di suites (del raw "jwt")
        (DI.freshOpts env.di o.diPurpose o.diDomain o.diChallenge)).1 = .ok ())
  /-- a COSE message: nothing is checked -/
  | cose (w : VpCwt) (hn : jwt = "") (hw : cwt = some w) (hm : env.parseCOSE w.raw = some w.message)
      (hv : env.cwtMap w.message.payload = some w.vpMap)
      (hr : get? w.vpMap "vp" = some (.obj raw) ∨ raw = [])

/-- The credential came enveloped in an object. -/
def IsEnvelope (c : JObj) : Prop :=
  get? c "type" = some (.str "EnvelopedVerifiableCredential") ∨
  ∃ l, get? c "type" = some (.arr l) ∧ Json.str "EnvelopedVerifiableCredential" ∈ l

/-- What is established about an enclosed credential: `po` are the options it is checked with. -/
inductive Enclosed (po : ParseOpts env.toPEnv) (vc : PCred env.T) : Json → Prop
  | str (s : String) (hs : Secured env.toPEnv po vc) (hb : Bound env.toPEnv vc) : Enclosed po vc (.str s)
  | envelope (c : JObj) (he : IsEnvelope c) (hs : Secured env.toPEnv po vc)
      (hb : Bound env.toPEnv vc) : Enclosed po vc (.obj c)
  /-- a credential object: its proof is not checked -/
  | object (c : JObj) (he : ¬ IsEnvelope c) (hj : vc.json = c) (hn : vc.jwt = none)
      (hw : vc.cwt = none) (hc : parseContents env.toCEnv (ofWire c) false = some vc.contents) :
      Enclosed po vc (.obj c)

/-- The credentials of a presentation object. -/
def CredentialMembers (raw : JObj) (l : List Json) : Prop :=
  ((get? raw "verifiableCredential" = none ∨ get? raw "verifiableCredential" = some .null) ∧ l = []) ∨
  get? raw "verifiableCredential" = some (.arr l) ∨
  ∃ j, get? raw "verifiableCredential" = some j ∧ j ≠ .null ∧ (∀ a, j ≠ .arr a) ∧ l = [j]

/-- The text of a proof's verification method. -/
def methodText (p : JObj) : String := env.sprint ((get? p "verificationMethod").getD .null)

/-- All subjects of the credentials have the same id, and there is at least one subject. -/
def OneSubject (creds : List (PCred env.T)) : Prop :=
  ∃ s, (∃ c ∈ creds, ∃ t ∈ c.contents.subject, t.id = s) ∧
    ∀ c ∈ creds, ∀ t ∈ c.contents.subject, t.id = s

/-- The holder rule: if a proof of the presentation and a proof of an enclosed credential name
verification methods of the same DID, the holder is the credential's issuer. -/
def HolderRule (proofs : List JObj) (creds : List (PCred env.T)) (holder : String) : Prop :=
  OneSubject env creds → ∀ p ∈ proofs, ∀ c ∈ creds, ∀ q ∈ c.proofs, ∀ did,
    methodText env p ≠ "" → DidPart (methodText env p) did → DidPart (methodText env q) did →
    holder ≠ "" ∧ ∃ i, c.contents.issuer = some i ∧ i.id = holder

end VC.Vfy.Spec
