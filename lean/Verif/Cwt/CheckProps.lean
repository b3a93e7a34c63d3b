import Verif.Cwt.PresProps
/-!
# C91: what `ParseAndCheckProof` of package cwt accepts
-/

namespace VC.Cwt

open GoMap (get?)
open VC.Vfy
open VC.Vfy.Spec
open VC.Proof (Bytes CwtReq)
open Spec

variable (lib : Lib)

namespace Spec

/-- The payload is a CBOR map with integer keys whose claim 1 (`iss`, RFC 8392) is the text `i`. -/
def IssuerClaim (payload : Bytes) (i : String) : Prop :=
  ∃ l, lib.decode payload = some l ∧ (∀ x ∈ l, ∃ n, x.1 = .int n) ∧
    ∃ pre post, l = pre ++ (.int 1, .str i) :: post ∧ ∀ x ∈ pre, x.1 ≠ .int 1

end Spec

theorem intMember_iff : ∀ (l : List (Cv × Cv)) (n : Int) (v : Cv), intMember l n = some v ↔
    ∃ pre post, l = pre ++ (.int n, v) :: post ∧ ∀ x ∈ pre, x.1 ≠ .int n
  | [], n, v => by simp [intMember]
  | (k, w) :: l, n, v => by
    have ih := intMember_iff l n v
    have other : k ≠ .int n → (intMember l n = some v ↔
        ∃ pre post, (k, w) :: l = pre ++ (.int n, v) :: post ∧ ∀ x ∈ pre, x.1 ≠ .int n) := by
      intro hk
      rw [ih]
      constructor
      · rintro ⟨pre, post, rfl, h⟩
        refine ⟨(k, w) :: pre, post, rfl, fun x hx => ?_⟩
        rcases List.mem_cons.1 hx with rfl | hx
        · exact hk
        · exact h x hx
      · rintro ⟨pre, post, h1, h⟩
        cases pre with
        | nil => simp only [List.nil_append, List.cons.injEq, Prod.mk.injEq] at h1; exact absurd h1.1.1 hk
        | cons a pre =>
          simp only [List.cons_append, List.cons.injEq] at h1
          exact ⟨pre, post, h1.2, fun x hx => h x (by simp [hx])⟩
    cases k with
    | int k' =>
      by_cases hk : k' = n
      · subst hk
        simp only [intMember, if_true, Option.some.injEq]
        constructor
        · rintro rfl; exact ⟨[], l, rfl, by simp⟩
        · rintro ⟨pre, post, h1, h⟩
          cases pre with
          | nil => simp only [List.nil_append, List.cons.injEq, Prod.mk.injEq] at h1; exact h1.1.2
          | cons a pre =>
            simp only [List.cons_append, List.cons.injEq] at h1
            exact absurd (by rw [← h1.1]) (h a (by simp))
      · simp only [intMember, if_neg hk]
        exact other (by intro h; cases h; exact hk rfl)
    | _ => exact other (by intro h; cases h)

theorem payloadIssuer_iff (payload : Bytes) (i : String) :
    payloadIssuer lib payload = some i ↔ IssuerClaim lib payload i := by
  unfold payloadIssuer IssuerClaim
  cases hd : lib.decode payload with
  | none => simp
  | some l =>
    have hall : (l.all fun e => isIntKey e.1) = true ↔ ∀ x ∈ l, ∃ n, x.1 = .int n := by
      rw [List.all_eq_true]
      refine forall₂_congr fun x hx => ?_
      cases x.1 <;> simp [isIntKey]
    dsimp only
    by_cases ha : (l.all fun e => isIntKey e.1) = true
    · rw [if_pos ha]
      have hm := intMember_iff l 1 (.str i)
      constructor
      · intro h
        refine ⟨l, rfl, hall.1 ha, hm.1 ?_⟩
        split at h
        · rename_i s hs; cases h; exact hs
        · cases h
      · rintro ⟨l', hl, -, h⟩
        cases hl
        rw [hm.2 h]
    · rw [if_neg ha]
      constructor
      · intro h; cases h
      · rintro ⟨l', hl, h, -⟩
        cases hl
        exact absurd (hall.2 h) ha

theorem verify_issuer (pc : CwtReq → String → Bytes → Bytes → Bool) (e : Option String) (km kid : String)
    (a : Int) (msg sig : Bytes) : verify pc e km kid a msg sig = true ↔
      ∃ x, CwtIssuer (e.getD "") kid x ∧ pc ⟨kid, km, a⟩ x msg sig = true := by
  have : verify pc e km kid a msg sig = pc ⟨kid, km, a⟩ (cwtIssuer (e.getD "") kid) msg sig := by
    unfold verify cwtIssuer
    split <;> rfl
  rw [this]
  simp [← cwtIssuer_iff]

/-- **C91** (decision): `ParseAndCheckProof` accepts a message exactly when it parses, has a text
COSE_Key header and an algorithm, and the proof checker accepts its signature over the signed bytes,
for the issuer claimed by the payload if `checkIssuer` is set, or else the DID of the key id. -/
theorem cwt_parse_check_iff (parse : String → Option Sign1) (pc : CwtReq → String → Bytes → Bytes → Bool)
    (checkIssuer : Bool) (data : String) (m : Sign1) (payload : Bytes) :
    parseAndCheckProof lib parse pc checkIssuer data = some (m, payload) ↔
      parse data = some m ∧ payload = m.payload ∧
      ∃ i key msg a x, (if checkIssuer then IssuerClaim lib m.payload i else i = "") ∧
        m.coseKey = some key ∧ proofValue m = some msg ∧ m.alg = some a ∧ CwtIssuer i m.kid x ∧
        pc ⟨m.kid, key, a⟩ x msg m.signature = true := by
  unfold parseAndCheckProof
  cases hp : parse data with
  | none => simp
  | some m' =>
    dsimp only
    have hexp : ∀ e, expectedIssuer lib checkIssuer m'.payload = some e →
        (if checkIssuer then IssuerClaim lib m'.payload (e.getD "") else e.getD "" = "") := by
      intro e he
      unfold expectedIssuer at he
      cases checkIssuer with
      | false => cases he; rfl
      | true =>
        obtain ⟨i, h1, rfl⟩ := Option.map_eq_some_iff.1 he
        exact (payloadIssuer_iff lib _ _).1 h1
    have hexp' : ∀ i, (if checkIssuer then IssuerClaim lib m'.payload i else i = "") →
        ∃ e, expectedIssuer lib checkIssuer m'.payload = some e ∧ e.getD "" = i := by
      intro i hi
      unfold expectedIssuer
      cases checkIssuer with
      | false => exact ⟨none, rfl, hi.symm⟩
      | true =>
        rw [if_pos rfl, (payloadIssuer_iff lib _ _).2 hi]
        exact ⟨some i, rfl, rfl⟩
    constructor
    · intro h
      cases he : expectedIssuer lib checkIssuer m'.payload with
      | none => rw [he] at h; cases h
      | some e =>
        rw [he] at h; dsimp only at h
        cases hk : m'.coseKey with
        | none => rw [hk] at h; simp at h
        | some key =>
          rw [hk] at h; simp only [Option.isSome_some, if_true] at h
          cases hv : proofValue m' with
          | none => rw [hv] at h; cases h
          | some msg =>
            rw [hv] at h; dsimp only at h
            split at h
            · rename_i hc
              cases h
              unfold checkProof at hc
              cases ha : m.alg with
              | none => rw [ha] at hc; cases hc
              | some a =>
                rw [hk] at hc
                simp only [ha] at hc
                obtain ⟨x, h1, h2⟩ := (verify_issuer pc e _ _ a msg _).1 hc
                exact ⟨rfl, rfl, e.getD "", key, msg, a, x, hexp e he, hk, hv, rfl, h1, h2⟩
            · cases h
    · rintro ⟨h1, rfl, i, key, msg, a, x, hi, hk, hv, ha, hx, hc⟩
      cases h1
      obtain ⟨e, he, rfl⟩ := hexp' i hi
      rw [he]; dsimp only
      rw [hk, hv]
      simp only [Option.isSome_some, if_true]
      have : checkProof pc e m msg m.signature = true := by
        unfold checkProof
        rw [hk]; simp only [ha]
        exact (verify_issuer pc e _ _ a msg _).2 ⟨x, hx, hc⟩
      rw [if_pos this]

/-- The bytes that are signed, for a payload that fits in memory. -/
theorem proofValue_structure {m : Sign1} {msg : Bytes} (h : proofValue m = some msg)
    (hlen : m.payload.length < 2 ^ 64) :
    ∃ prot s, m.prot = some prot ∧ BstrOf prot s ∧ SigStructure msg s (some m.payload) := by
  have hpv : getProofValue m.prot (some m.payload) = .ok msg := by
    unfold proofValue at h
    split at h
    · rename_i b hb; cases h; exact hb
    · cases h
  exact (proofValue_spec m.prot (some m.payload) msg (by rintro b hb; cases hb; exact hlen)).1 hpv

/-- **C91 (partial)** (soundness): with the library's checker and DID resolver and `checkIssuer`, an
accepted message whose `iss` claim is not empty has a key id that is a key of the DID named by the
claim, and that key signed the `Sig_structure` of the message.

Missing: an empty `iss` claim, which is treated as absent (`cwt_empty_issuer_accepted`). -/
theorem cwt_accepted_key_of_issuer_partial (parse : String → Option Sign1) (c : Proof.Checker)
    (coseKey : String → Option (Proof.Jwk × Proof.KeyType))
    (vdr : String → Option (List Proof.DocEntry)) (hr : c.resolve = Proof.vdrResolve vdr)
    (data : String) (m : Sign1) (payload : Bytes) (i : String)
    (h : parseAndCheckProof lib parse (cwtChecker c coseKey) true data = some (m, payload))
    (hi : IssuerClaim lib payload i) (hne : i ≠ "") (hlen : payload.length < 2 ^ 64) :
    ∃ vm d msg prot s, Proof.KeyOfDid vdr i m.kid vm ∧ d ∈ c.cwt ∧ m.alg = some d.cwtAlg ∧
      m.prot = some prot ∧ BstrOf prot s ∧ SigStructure msg s (some payload) ∧
      Proof.Signed c.verifiers d.vms vm msg m.signature := by
  obtain ⟨h1, rfl, i', key, msg, a, x, hi', hk, hv, ha, hx, hc⟩ := (cwt_parse_check_iff lib _ _ _ _ _ _).1 h
  rw [if_pos rfl] at hi'
  have hii : i' = i := by
    have e1 := (payloadIssuer_iff lib _ _).2 hi'
    have e2 := (payloadIssuer_iff lib _ _).2 hi
    rw [e1] at e2; exact Option.some.inj e2
  subst hii
  have hxi : x = i' := by
    rcases hx with ⟨-, hx⟩ | ⟨hx, -⟩ | ⟨hx, -⟩
    · exact hx
    · exact absurd hx hne
    · exact absurd hx hne
  subst hxi
  have hc' : c.checkCWT coseKey ⟨m.kid, key, a⟩ x msg m.signature = .ok () := toBool_ok hc
  obtain ⟨-, d, hd, hda, hs⟩ := Proof.cwt_proof_sound _ _ _ _ _ _ hc'
  rcases hs with ⟨-, vm, hv1, hs⟩ | ⟨-, -, hx, -⟩
  · rw [hr] at hv1
    obtain ⟨prot, s, e1, e2, e3⟩ := proofValue_structure hv hlen
    refine ⟨vm, d, msg, prot, s, (Proof.resolver_sound _ _ _).1 _ hv1, hd, ?_, e1, e2, e3, hs⟩
    rw [ha]; exact congrArg some hda.symm
  · exact absurd hx hne

/-- **C88** (credentials): a CWT credential accepted with the library's checker and DID resolver
carries a signature, by a key of its issuer, over the `Sig_structure` of RFC 9052 with the protected
header bytes and the payload of the message. -/
theorem cwt_credential_sig_structure (env : PEnv) (o : ParseOpts env) (c : Proof.Checker)
    (coseKey : String → Option (Proof.Jwk × Proof.KeyType))
    (vdr : String → Option (List Proof.DocEntry)) (hr : c.resolve = Proof.vdrResolve vdr)
    (hc : o.cwtChecker = some (cwtChecker c coseKey)) (data : String) (vc : PCred env.T)
    (e : CwtEnvelope) (hp : o.disabledProofCheck = false)
    (h : parseCredential env o data = .ok vc) (hj : vc.jwt = none) (he : vc.cwt = some e)
    (hlen : e.message.payload.length < 2 ^ 64) :
    ∃ i vm d msg prot s, vc.contents.issuer = some i ∧ i.id ≠ "" ∧
      Proof.KeyOfDid vdr i.id e.message.kid vm ∧ d ∈ c.cwt ∧ e.message.alg = some d.cwtAlg ∧
      e.message.prot = some prot ∧ BstrOf prot s ∧ SigStructure msg s (some e.message.payload) ∧
      Proof.Signed c.verifiers d.vms vm msg e.message.signature ∧
      env.cwtVC e.message.payload = some vc.json := by
  obtain ⟨i, msg, vm, h1, h2, h3, h4, ⟨d, hd, ha, hs⟩, h6, -⟩ :=
    cwt_credential_signed_by_issuer env o c coseKey vdr hr hc data vc e hp h hj he
  obtain ⟨prot, s, e1, e2, e3⟩ := proofValue_structure h3 hlen
  exact ⟨i, vm, d, msg, prot, s, h1, h2, h4, hd, ha, e1, e2, e3, hs, h6⟩

/-- **C91** (violated for an empty issuer): a payload whose `iss` claim is the empty text is accepted
with `checkIssuer` exactly as without it, for whatever DID the key id names. -/
theorem cwt_empty_issuer_accepted (parse : String → Option Sign1)
    (pc : CwtReq → String → Bytes → Bytes → Bool) (data : String) (m : Sign1)
    (hm : parse data = some m) (hi : IssuerClaim lib m.payload "") :
    parseAndCheckProof lib parse pc true data = parseAndCheckProof lib parse pc false data := by
  have key : ∀ r : Sign1 × Bytes, parseAndCheckProof lib parse pc true data = some r ↔
      parseAndCheckProof lib parse pc false data = some r := by
    rintro ⟨m', p⟩
    rw [cwt_parse_check_iff, cwt_parse_check_iff]
    constructor
    · rintro ⟨h1, rfl, i, key, msg, a, x, h2, h3⟩
      have e : i = "" := by
        rw [hm] at h1; cases h1
        have e1 := (payloadIssuer_iff lib _ _).2 h2
        rw [(payloadIssuer_iff lib _ _).2 hi] at e1
        exact (Option.some.inj e1).symm
      exact ⟨h1, rfl, i, key, msg, a, x, e, h3⟩
    · rintro ⟨h1, rfl, i, key, msg, a, x, h2, h3⟩
      have e : i = "" := h2
      subst e
      rw [hm] at h1
      cases h1
      exact ⟨hm, rfl, "", key, msg, a, x, hi, h3⟩
  cases h1 : parseAndCheckProof lib parse pc true data with
  | some r => exact ((key r).1 h1).symm
  | none =>
    cases h2 : parseAndCheckProof lib parse pc false data with
    | none => rfl
    | some r => rw [(key r).2 h2] at h1; cases h1

/-- **C91** (violated for the library's own messages): `ParseAndCheckProof` refuses every message that
`marshalCOSE` makes, since those name their key by id and have no COSE_Key header. -/
theorem cwt_own_messages_refused (parse : String → Option Sign1)
    (pc : CwtReq → String → Bytes → Bytes → Bool) (checkIssuer : Bool)
    (sign : String → Int → Bytes → Option Bytes) (alg : Int) (kid : String) (claims : List (Cv × Cv))
    (e : CwtEnvelope) (hm : Made lib sign alg kid claims e) (hp : parse e.raw = some e.message) :
    parseAndCheckProof lib parse pc checkIssuer e.raw = none := by
  cases h : parseAndCheckProof lib parse pc checkIssuer e.raw with
  | none => rfl
  | some r =>
    obtain ⟨m, p⟩ := r
    obtain ⟨h1, -, i, key, msg, a, x, -, hk, -⟩ := (cwt_parse_check_iff lib _ _ _ _ _ _).1 h
    rw [hp] at h1
    cases h1
    rw [hm.noKey] at hk
    cases hk

/-- **C91** (key in the message): with the library's checker, a message that carries only its own key
is accepted only if no issuer is expected. -/
theorem cwt_own_key_no_issuer (parse : String → Option Sign1) (c : Proof.Checker)
    (coseKey : String → Option (Proof.Jwk × Proof.KeyType)) (data : String) (m : Sign1) (payload : Bytes)
    (i : String) (hk : m.kid = "") (hi : IssuerClaim lib m.payload i)
    (hne : i ≠ "") :
    parseAndCheckProof lib parse (cwtChecker c coseKey) true data ≠ some (m, payload) := by
  intro h
  obtain ⟨h1, rfl, i', key, msg, a, x, hi', -, hv, ha, hx, hc⟩ := (cwt_parse_check_iff lib _ _ _ _ _ _).1 h
  rw [if_pos rfl] at hi'
  have hii : i' = i := by
    have e1 := (payloadIssuer_iff lib _ _).2 hi'
    rw [(payloadIssuer_iff lib _ _).2 hi] at e1
    exact (Option.some.inj e1).symm
  subst hii
  have hxi : x = i' := by
    rcases hx with ⟨-, hx⟩ | ⟨hx, -⟩ | ⟨hx, -⟩
    · exact hx
    · exact absurd hx hne
    · exact absurd hx hne
  subst hxi
  obtain ⟨-, d, -, -, hs⟩ := Proof.cwt_proof_sound _ _ _ _ _ _ (toBool_ok hc)
  rcases hs with ⟨hn, -⟩ | ⟨-, -, hx, -⟩
  · exact hn hk
  · exact hne hx

end VC.Cwt
