import Verif.Issue.SdMake
import Verif.Verifiable.ParseMain
/-!
# C139: whatever is presented of a made SD-JWT credential, a reader sees only what the issuer wrote

The text that is read may be any text: an envelope, a JSON object, a combined format with any
disclosures.  If a reader accepts it and takes from it the JWT that `MakeSDJWT` signed, then what it
displays is a part of the issuer's credential, or the presenter sent a text with the hash of one of the
issuer's.
-/

namespace VC.Iss

open GoMap (get? keys del WF)
open VC.Vfy
open VC.Vfy.Spec
open VC.Proof (Bytes)
open VC.SDJWT (IEnv Ver Ent Codec DistinctDigests SolidObj DMap Disc)
open VC.SDJWT.Spec (Collision WithinObj)
open Spec

/-! ## Specification -/

namespace Spec

/-- The text of the credential in `text`: `text` itself, or the data of the data URL that is the id of the
envelope `text`. -/
inductive Carries (env : PEnv) (text : String) : String → Prop
  | itself : Carries env text text
  | envelope {json : JObj} {id m x data : String} : env.decodeObj text = some json →
      get? json "id" = some (.str id) → parseDataURL id = some (m, x, data) → Carries env text data

/-- The sender sent the text `s`: it is one of the parts, separated by `~`, of the credential in `text` (of the
string it quotes, or of the member `jwt` of the object it is). -/
def Sent (env : PEnv) (text s : String) : Prop :=
  ∃ data, Carries env text data ∧ s ∈ split '~' (unwrapStringVC env data)

end Spec

/-! ## What is read comes from what was sent -/

theorem parts_sent (env : PEnv) (s : String) : ∀ d ∈ (jwsParts env s).disclosures, d ∈ split '~' s := by
  intro d hd
  unfold jwsParts at hd
  split at hd
  · unfold splitCombined at hd
    split at hd
    · unfold SDJWT.parsePresentation at hd
      dsimp only at hd
      split at hd
      · exact List.mem_of_mem_take (List.mem_of_mem_drop hd)
      · exact nomatch hd
    · unfold SDJWT.parseIssuance at hd
      dsimp only at hd
      split at hd
      · exact List.mem_of_mem_drop hd
      · exact nomatch hd
  · exact nomatch hd

/-- The credential `pc` with the JWT envelope `e` was read from the text `data`. -/
structure ReadFrom (env : PEnv) (data : String) (pc : PCred env.T) (e : JwtEnvelope) (p : JwsParts) (r : JObj × JObj) :
    Prop where
  parts : tryParseAsJWS env (unwrapStringVC env data) = some p
  decode : decodeCredJWT env p.jwt = .ok r
  jwt : e.jwt = p.jwt
  valid : validateDisclosures env r.2 p.disclosures = true
  contents : parseContents env.toCEnv (ofWire r.2) p.isSDJWT = some pc.contents
  resolved : parseDisclosures env p.disclosures pc.contents.sdAlg = some e.disclosures

theorem parseJSON_read {env : PEnv} {o : ParseOpts env} {data : String} {pc : PCred env.T} {e : JwtEnvelope}
    (h : parseJSON env o data = .ok pc) (he : pc.jwt = some e) : ∃ p r, ReadFrom env data pc e p r := by
  unfold parseJSON at h
  cases ht : tryParseAsJWS env (unwrapStringVC env data) with
  | none =>
    rw [ht] at h
    obtain ⟨json, -, h2⟩ := Res.bind_ok.1 h
    unfold finishJSON at h2
    simp only at h2
    split at h2
    · cases h2
    · split at h2
      · cases h2
      · obtain ⟨-, -, h3⟩ := Res.bind_ok.1 h2
        cases h3
        cases he
  | some p =>
    rw [ht] at h
    obtain ⟨r, h1, h2⟩ := Res.bind_ok.1 h
    unfold openJWS at h1
    obtain ⟨r', h3, h4⟩ := Res.bind_ok.1 h1
    by_cases hv : validateDisclosures env r'.2 p.disclosures = true
    · rw [if_pos hv] at h4
      cases h4
      unfold finishJSON at h2
      simp only [Option.elim] at h2
      cases hc : parseContents env.toCEnv (ofWire r.2) p.isSDJWT with
      | none => rw [hc] at h2; cases h2
      | some c =>
        rw [hc] at h2
        dsimp only at h2
        split at h2
        · cases h2
        · obtain ⟨-, -, h5⟩ := Res.bind_ok.1 h2
          cases hd : parseDisclosures env p.disclosures c.sdAlg with
          | none => rw [hd] at h5; cases h5
          | some dm =>
            rw [hd] at h5
            cases h5
            cases he
            exact ⟨p, r, ht, h3, rfl, hv, hc, hd⟩
    · rw [if_neg hv] at h4
      cases h4

theorem parseCBOR_jwt {env : PEnv} {o : ParseOpts env} {data : String} {pc : PCred env.T}
    (h : parseCBOR env o data = .ok pc) : pc.jwt = none := by
  unfold parseCBOR at h
  obtain ⟨e, -, h2⟩ := Res.bind_ok.1 h
  split at h2
  · cases h2
  · split at h2
    · cases h2
    · obtain ⟨-, -, h3⟩ := Res.bind_ok.1 h2
      cases h3
      rfl

theorem checkProof_jwt {env : PEnv} {o : ParseOpts env} {a b : PCred env.T} (h : checkProof env o a = some b) :
    b.jwt = a.jwt ∧ (b.jwt ≠ none → b = a) := by
  unfold checkProof at h
  split at h
  · cases h
  · split at h
    · split at h
      · cases h
      · split at h
        · cases h; exact ⟨rfl, fun _ => rfl⟩
        · cases h
    · rename_i hj
      split at h
      · split at h
        · cases h
        · split at h
          · cases h; exact ⟨rfl, fun _ => rfl⟩
          · cases h
      · split at h
        · cases h; exact ⟨rfl, fun hn => absurd hj hn⟩
        · cases h

theorem parseWith_jwt {env : PEnv} {parser : ParseOpts env → String → Res (PCred env.T)} {o : ParseOpts env}
    {data : String} {pc : PCred env.T} {e : JwtEnvelope} (h : parseWith env parser o data = .ok pc)
    (he : pc.jwt = some e) : parser o data = .ok pc := by
  unfold parseWith at h
  obtain ⟨a, h1, h2⟩ := Res.bind_ok.1 h
  obtain ⟨b, h3, h4⟩ := Res.bind_ok.1 h2
  have hb : b = pc := by
    split at h4
    · cases h4; rfl
    · cases h4
  subst hb
  split at h3
  · cases h3; exact h1
  · have := (checkProof_jwt (Res.ofOption_ok.1 h3)).2 (by rw [he]; exact Option.some_ne_none _)
    rw [this]; exact h1

/-- A credential with a JWT envelope was read, by the JSON parser, from the text it was sent in. -/
theorem parsed_read {env : PEnv} {o : ParseOpts env} {text : String} {pc : PCred env.T} {e : JwtEnvelope}
    (h : parseCredential env o text = .ok pc) (he : pc.jwt = some e) :
    ∃ data p r, Carries env text data ∧ ReadFrom env data pc e p r := by
  unfold parseCredential at h
  rcases orNext_ok.1 h with h1 | ⟨-, h1⟩
  · have h2 := parseWith_jwt h1 he
    unfold parseEnveloped at h2
    cases hd : env.decodeObj text with
    | none => rw [hd] at h2; cases h2
    | some json =>
      rw [hd] at h2
      dsimp only at h2
      split at h2
      · cases h2
      · split at h2
        · cases h2
        · split at h2
          · rename_i id hid
            unfold parseCredDataURL at h2
            cases hu : parseDataURL id with
            | none => rw [hu] at h2; cases h2
            | some x =>
              obtain ⟨m, x, d⟩ := x
              rw [hu] at h2
              dsimp only at h2
              split at h2
              · obtain ⟨p, r, hp⟩ := parseJSON_read (parseWith_jwt h2 he) he
                exact ⟨d, p, r, .envelope hd hid hu, hp⟩
              · split at h2
                · have := parseCBOR_jwt (parseWith_jwt h2 he)
                  rw [he] at this; cases this
                · cases h2
          · cases h2
  · rcases orNext_ok.1 h1 with h2 | ⟨-, h2⟩
    · obtain ⟨p, r, hp⟩ := parseJSON_read (parseWith_jwt h2 he) he
      exact ⟨text, p, r, .itself, hp⟩
    · have := parseCBOR_jwt (parseWith_jwt h2 he)
      rw [he] at this; cases this

/-! ## Disclosures that are sent twice -/

theorem set_same {α : Type _} {m : GoMap α} {k : String} {v : α} (h : get? m k = some v) : GoMap.set m k v = m := by
  induction m with
  | nil => cases h
  | cons p m ih =>
    obtain ⟨k', v'⟩ := p
    rw [GoMap.get?_cons] at h
    by_cases e : k' = k
    · subst e
      rw [if_pos rfl] at h
      cases h
      simp [GoMap.set]
    · rw [if_neg e] at h
      simp only [GoMap.set, e, if_false]
      rw [ih h]

theorem setAll_nil (cleanup : Bool) (fuel : Nat) : ∀ l : List String,
    SDJWT.setAll cleanup fuel ⟨[], []⟩ l = .ok ⟨[], []⟩
  | [] => rfl
  | d :: l => by
    simp only [SDJWT.setAll, get?]
    exact setAll_nil cleanup fuel l

theorem claims_once {env : SDJWT.Env} {alg : String} : ∀ (S seen : List String) (acc D : DMap),
    (∀ s ∈ seen, ∃ c, SDJWT.getDisclosureClaim env alg s = .ok (env.hash alg s, c) ∧ get? acc (env.hash alg s) = some c) →
    (∀ s ∈ S, ∀ t, t ∈ S ∨ t ∈ seen → env.hash alg s = env.hash alg t → s = t) →
    SDJWT.getDisclosureClaims env alg S acc = .ok D →
    ∃ S', (∀ s ∈ S', s ∈ S) ∧ S'.Nodup ∧ (∀ s ∈ S', s ∉ seen) ∧ (∀ s ∈ S, s ∈ S' ∨ s ∈ seen) ∧
      SDJWT.getDisclosureClaims env alg S' acc = .ok D
  | [], seen, acc, D, _, _, h => ⟨[], nofun, List.nodup_nil, nofun, nofun, h⟩
  | s :: S, seen, acc, D, hseen, hinj, h => by
    simp only [SDJWT.getDisclosureClaims] at h
    cases hc : SDJWT.getDisclosureClaim env alg s with
    | error e => rw [hc] at h; cases h
    | ok x =>
      obtain ⟨d, c⟩ := x
      have hd : d = env.hash alg s := (SDJWT.getDisclosureClaim_ok hc).1
      subst hd
      rw [hc] at h
      dsimp only at h
      by_cases hs : s ∈ seen
      · obtain ⟨c', h1, h2⟩ := hseen s hs
        rw [hc] at h1
        cases h1
        rw [set_same h2] at h
        obtain ⟨S', a1, a2, a3, a4, a5⟩ := claims_once S seen acc D hseen
          (fun s' hs' t ht => hinj s' (List.mem_cons_of_mem _ hs') t (ht.imp (List.mem_cons_of_mem _) id)) h
        refine ⟨S', fun t ht => List.mem_cons_of_mem _ (a1 t ht), a2, a3, ?_, a5⟩
        intro t ht
        rcases List.mem_cons.1 ht with rfl | ht
        · exact Or.inr hs
        · exact a4 t ht
      · obtain ⟨S', a1, a2, a3, a4, a5⟩ := claims_once S (s :: seen) _ D (by
          intro t ht
          by_cases e : t = s
          · subst e
            exact ⟨c, hc, GoMap.get?_set_self _ _ _⟩
          · have ht' : t ∈ seen := (List.mem_cons.1 ht).resolve_left e
            obtain ⟨c', h1, h2⟩ := hseen t ht'
            refine ⟨c', h1, ?_⟩
            rw [GoMap.get?_set_ne _ _ (fun hh => e (hinj s List.mem_cons_self t (Or.inr ht') hh).symm)]
            exact h2)
          (by
            intro s' hs' t ht
            refine hinj s' (List.mem_cons_of_mem _ hs') t ?_
            rcases ht with ht | ht
            · exact Or.inl (List.mem_cons_of_mem _ ht)
            · rcases List.mem_cons.1 ht with rfl | ht
              · exact Or.inl List.mem_cons_self
              · exact Or.inr ht) h
        refine ⟨s :: S', ?_, ?_, ?_, ?_, ?_⟩
        · intro t ht
          rcases List.mem_cons.1 ht with rfl | ht
          · exact List.mem_cons_self
          · exact List.mem_cons_of_mem _ (a1 t ht)
        · exact List.nodup_cons.2 ⟨fun hm => a3 s hm List.mem_cons_self, a2⟩
        · intro t ht
          rcases List.mem_cons.1 ht with rfl | ht
          · exact hs
          · exact fun h' => a3 t ht (List.mem_cons_of_mem _ h')
        · intro t ht
          rcases List.mem_cons.1 ht with rfl | ht
          · exact Or.inl List.mem_cons_self
          · rcases a4 t ht with h' | h'
            · exact Or.inl (List.mem_cons_of_mem _ h')
            · rcases List.mem_cons.1 h' with rfl | h'
              · exact Or.inl List.mem_cons_self
              · exact Or.inr h'
        · simp only [SDJWT.getDisclosureClaims]
          rw [hc]
          exact a5

/-! ## What is displayed of the disclosures that were sent -/

section Shown
variable {env : PEnv} {E : IEnv} {ver : Ver} {non : List String} {vc : Cred env.T} {cs payload json o out : JObj}
    {r : Claims} {ds : List String} {co c : Contents env.T} {h : Hash} {D : DMap} {ms : SDJWT.Members}

/-- Displaying the disclosures `S`. -/
theorem display_some (hI : Issuable env vc ver cs) (hL : SdLibs env E)
    (hM : MadeClaims env E ver non vc cs r ds payload json o co c h D out ms)
    (hsolid : SolidObj (wireObj vc.json)) {pc : PCred env.T} {e : JwtEnvelope} {hs : JObj} {S : List String}
    (hsd : pc.contents.sdAlg = some h) (hjwt : pc.jwt = some e)
    (hres : SDJWT.resolveDisclosureClaims env.sd E.alg S env.dOrder = .ok e.disclosures)
    (hS : ∀ s ∈ S, s ∈ ds) (hn : S.Nodup)
    (hdec : decodeCredJWT env e.jwt = .ok (hs, json)) {id : String} {custom : JObj}
    (hsub : vc.contents.subject = [⟨id, custom⟩]) (hid : get? cs "id" = some (.str id)) :
    ∃ m c', createDisplayMap env pc true [] = .ok m ∧ DisplayOf env vc (ms.reveal S) m ∧
      createDisplay env pc true [] = .ok ⟨del m "proof", c', [], none, none⟩ ∧
      DisplayContents env vc.contents m c' := by
  obtain ⟨-, o2, p2, p3⟩ := hM.presents S env.dOrder hS hn hL.order
  have hd : SDJWT.getDisclosedClaims env.sd (displayDiscs e.disclosures true []) json = .ok o2 := by
    have e1 : displayDiscs e.disclosures true [] = e.disclosures := rfl
    rw [e1]
    have p2' := p2
    unfold SDJWT.disclosedClaims at p2'
    rw [hM.hashAlg] at p2'
    dsimp only at p2'
    rw [hres] at p2'
    exact p2'
  obtain ⟨h1, h2⟩ := create_display_eq hsd hjwt hdec (all := true) (given := []) rfl hd
  obtain ⟨k1, ⟨s, k2, k3, k4⟩, kw⟩ := display_of_claims env hM hI.unreserved hI.json hsolid hL.order p2 p3
  have hcl : SDJWT.OEq (clearEmpty s) (clearEmpty (ms.reveal S)) := oeq_clear k3
  have hcw : WF ms.erase := by
    have := SDJWT.jwf_get hI.json hI.subject
    simp only [SDJWT.JWF] at this
    rw [hM.tree]
    exact this.1
  have hrw : WF (ms.reveal S) := SDJWT.reveal_wf S ms hcw
  have hid' : get? (clearEmpty s) "id" = some (.str id) := by
    obtain ⟨a, ha, hiff⟩ := SDJWT.atomic_at (v := .str id) (by simp [SDJWT.Atomic]) hM.policy (hM.tree ▸ hid)
    have : a = none := hiff.2 (by
      simp [SDJWT.makeEnv])
    subst this
    have hr := SDJWT.reveal_clear (S := S) ha hcw (by simp [SDJWT.Node.reveal, SDJWT.tidy, Json.isNull])
    have hc := clear_get_leaf hrw (v := .str id) (by simp) (by
      rw [hr]; simp [SDJWT.Node.reveal, SDJWT.tidy])
    rcases SDJWT.JEq.get hcl "id" with ⟨-, g⟩ | ⟨v, v', g1, g2, g3⟩
    · rw [hc] at g; cases g
    · rw [hc] at g2
      cases g2
      rw [g1, SDJWT.jeq_atomic g3 (by simp [SDJWT.Atomic])]
  obtain ⟨c', hc', hdc⟩ := display_contents hM k1 k4 hsub hid'
  refine ⟨_, c', h1, ⟨?_, ?_⟩, by rw [h2, hc'], hdc⟩
  · intro k hk1 hk2
    rw [k1 k hk2, hM.refined.rest k hk1]
  · refine ⟨_, clearEmpty (ms.reveal S), k4, hcl, clearEmpty_noEmpty _, fun p v => clearEmpty_leaves _ p v, ?_⟩
    intro hne
    exact clear_id _ _ (Nat.lt_succ_self _) hne

end Shown

/-! ## The property -/

section Main

variable {lib : JwsLib} {E : IEnv} {env : PEnv} {ver : Ver} {non : List String} {kid : String} {hs : JObj}
  {sign : Bytes → Option Bytes} {vc : Cred env.T} {cs : JObj} {t : Tok} {es : List Ent}

/-- **C139**: whatever text a reader accepts, if the JWT it takes from it is the one `MakeSDJWT` signed, then
the sender has sent a text that is not one of the issuer's disclosures but has the hash of one, or the
credential the reader displays is a part of the issuer's: outside the subject what the issuer wrote, and
of the subject a part, with its id. -/
theorem presented_shows_part (o : ParseOpts env) (hI : Issuable env vc ver cs) (hL : SdLibs env E)
    (h : makeSdToken lib E env.toJEnv ver non kid hs sign vc = .ok (t, es)) (hR : Readable lib env t es)
    (hsolid : SolidObj (wireObj vc.json)) {text : String} {pc : PCred env.T} {e : JwtEnvelope}
    (hp : parseCredential env o text = .ok pc) (he : pc.jwt = some e) (hjwt : e.jwt = serialize lib false t)
    (hsd : pc.contents.sdAlg ≠ none) :
    (∃ s d, Sent env text s ∧ d ∈ es.map Ent.result ∧ Collision env.sd E.alg s d) ∨
    ∃ shown m c, WithinObj shown cs ∧
      createDisplayMap env pc true [] = .ok m ∧ DisplayOf env vc shown m ∧
      createDisplay env pc true [] = .ok ⟨del m "proof", c, [], none, none⟩ ∧
      DisplayContents env vc.contents m c := by
  by_cases hcol : ∃ s d, Sent env text s ∧ d ∈ es.map Ent.result ∧ Collision env.sd E.alg s d
  · exact Or.inl hcol
  refine Or.inr ?_
  obtain ⟨data, p, rr, hcar, hread⟩ := parsed_read hp he
  obtain ⟨r, m, h1, h2, h3⟩ := makeSdToken_inv lib h
  obtain ⟨-, -, hh, -, -⟩ := compact_of_signed lib h3
  obtain ⟨json, o', co, c, a, D, out, ms, hM⟩ := made_claims env hI hL h1 h2 (by rw [hL.same]; exact hR.codec)
    (by rw [hL.same]; exact hR.distinct) hR.some
  have hdec := readable_decode hR hh hM.decode
  have hrr : rr = (t.jws.headers, json) := by
    have := hread.decode
    rw [← hread.jwt, hjwt, hdec] at this
    cases this
    rfl
  subst hrr
  -- the texts sent
  have hsent : ∀ s ∈ p.disclosures, Sent env text s := by
    intro s hs
    refine ⟨data, hcar, parts_sent env _ s ?_⟩
    have := hread.parts
    unfold tryParseAsJWS at this
    split at this
    · cases this; exact hs
    · cases this
  have hin : ∀ s ∈ p.disclosures, s ∈ es.map Ent.result := by
    have hv := hread.valid
    unfold validateDisclosures at hv
    by_cases hemp : p.disclosures.isEmpty = true
    · rw [List.isEmpty_iff] at hemp
      rw [hemp]
      exact nofun
    · rw [if_neg hemp] at hv
      have hpl : disclosurePayload json = some json := by
        unfold disclosurePayload
        cases hj : get? json "_sd_alg" with
        | some _ => rfl
        | none => exact absurd hj hM.hasAlg
      rw [hpl] at hv
      dsimp only at hv
      cases hver : SDJWT.verifyDisclosures env.sd p.disclosures json with
      | error _ => rw [hver] at hv; cases hv
      | ok u =>
        rcases SDJWT.accepted_texts (P := fun s => s ∈ es.map Ent.result) hM.hashAlg hM.commits hM.values hver with
          ⟨s, hs, d, hd, hc⟩ | hall
        · exact absurd ⟨s, d, hsent s hs, hd, hc⟩ hcol
        · exact hall
  -- the algorithm
  have halg : pc.contents.sdAlg = some a := by
    cases hb : p.isSDJWT with
    | true =>
      have := hread.contents
      rw [hb, hM.contents, Option.some.injEq] at this
      rw [← this, hM.alg]
    | false =>
      have := hread.contents
      rw [hb] at this
      exact absurd ((sdAlg_flag env this).2 rfl) hsd
  -- without duplicates
  obtain ⟨S, hS, hn, hres⟩ : ∃ S, (∀ s ∈ S, s ∈ es.map Ent.result) ∧ S.Nodup ∧
      SDJWT.resolveDisclosureClaims env.sd E.alg S env.dOrder = .ok e.disclosures := by
    have hr := hread.resolved
    unfold parseDisclosures at hr
    by_cases hemp : p.disclosures.isEmpty = true
    · rw [if_pos hemp, Option.some.injEq] at hr
      refine ⟨[], nofun, List.nodup_nil, ?_⟩
      obtain ⟨-, o2, p2, -⟩ := hM.presents [] env.dOrder nofun List.nodup_nil hL.order
      rw [← hr]
      unfold SDJWT.resolveDisclosureClaims
      simp only [SDJWT.getDisclosureClaims]
      rw [setAll_nil]
    · rw [if_neg hemp, halg] at hr
      dsimp only at hr
      rw [hM.algIs] at hr
      cases hx : SDJWT.resolveDisclosureClaims env.sd E.alg p.disclosures env.dOrder with
      | error _ => rw [hx] at hr; cases hr
      | ok D' =>
        rw [hx] at hr
        cases hr
        have hx' := hx
        unfold SDJWT.resolveDisclosureClaims at hx'
        cases hg : SDJWT.getDisclosureClaims env.sd E.alg p.disclosures [] with
        | error _ => rw [hg] at hx'; cases hx'
        | ok D0 =>
          obtain ⟨S', a1, a2, -, -, a5⟩ := claims_once p.disclosures [] [] D0 nofun (by
            intro s hs t' ht hst
            by_contra hne
            exact hcol ⟨s, t', hsent s hs, hin t' (ht.resolve_right (List.not_mem_nil)), hne, hst⟩) hg
          refine ⟨S', fun s hs => hin s (a1 s hs), a2, ?_⟩
          rw [← hx]
          unfold SDJWT.resolveDisclosureClaims
          rw [hg, a5]
  obtain ⟨id, custom, hsub, hid⟩ := subject_of_issuable hI h hM.plain hM.sameCo hM.refined
  obtain ⟨m', c', k1, k2, k3, k4⟩ := display_some hI hL hM hsolid halg he hres hS hn
    (by rw [hjwt]; exact hdec) hsub hid
  exact ⟨ms.reveal S, m', c', hM.tree ▸ SDJWT.members_within S ms, k1, k2, k3, k4⟩

end Main

end VC.Iss
