import Verif.BBS.Model
import Batteries.Data.List.Basic
/-!
# BBS+ selective disclosure (specification)
-/

namespace VC.BBS.Spec

open GoMap
open VC.Proof (Bytes)

variable (env : BEnv)

/-- The statements of a canonical document: its lines that are not blank. -/
def Statements (text : String) (l : List String) : Prop :=
  ∃ rows, rows ≠ [] ∧ (∀ r ∈ rows, '\n' ∉ r.toList) ∧ text = joinC '\n' rows ∧
    l = rows.filter (fun r => !env.blank r)

/-- The last statement whose transformed form is `r` has index `d`. -/
def LastAt (stmts : List String) (r : String) (d : Nat) : Prop :=
  (∃ s, stmts[d]? = some s ∧ env.toBlank s = r) ∧
  ∀ d' s, d < d' → stmts[d']? = some s → env.toBlank s ≠ r

/-- The indexes for revealing `rs` of the document statements `stmts` behind `p` proof statements:
all proof statements, then for each revealed statement in turn the place where it stands in the
document, or the place of the first document statement if it does not stand there. -/
def Indexes (p : Nat) (stmts rs : List String) (is : List Nat) : Prop :=
  ∃ js, is = List.range p ++ js.map (p + ·) ∧
    List.Forall₂ (fun r j => LastAt env stmts r j ∨
      ((∀ s ∈ stmts, env.toBlank s ≠ r) ∧ j = 0)) rs js

/-- The proof derived from one BBS+ signature for the given statements. -/
def DerivedFrom (stmts rs : List String) (nonce : Bytes) (p q : JObj) : Prop :=
  ∃ text ps kid sig ctrl key is pv,
    env.canon (del p "proofValue") = some text ∧ Statements env text ps ∧
    env.newProof p = some (some kid, sig) ∧ '#' ∉ ctrl.toList ∧
    (kid = ctrl ∨ ∃ f : String, kid = ctrl ++ "#" ++ f) ∧ env.resolve kid ctrl = some key ∧
    Indexes env ps.length stmts rs is ∧ env.derive (ps ++ stmts) sig nonce key is = some pv ∧
    get? q "type" = some (.str "BbsBlsSignatureProof2020") ∧
    get? q "nonce" = some (.str (env.b64 nonce)) ∧ get? q "proofValue" = some (.str (env.b64 pv)) ∧
    ∀ k ∈ ["verificationMethod", "proofPurpose", "created"], get? q k = some ((get? p k).getD .null)

/-- The type ends in `BbsBlsSignature2020`. -/
def IsBls (p : JObj) : Prop :=
  ∃ pre : String, get? p "type" = some (.str (pre ++ "BbsBlsSignature2020"))

/-- The BBS+ signatures among the proofs, in order, with the security context set. -/
inductive Signatures : List JObj → List JObj → Prop
  | nil : Signatures [] []
  | take (p : JObj) (l l' : List JObj) (h : IsBls p) (t : Signatures l l') :
      Signatures (p :: l) (set p "@context" (.str "https://w3id.org/security/v2") :: l')
  | skip (p : JObj) (l l' : List JObj) (h : ¬ IsBls p) (t : Signatures l l') : Signatures (p :: l) l'

end VC.BBS.Spec
