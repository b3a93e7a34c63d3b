import Verif.BBS.Props
/-!
# BBS+ selective disclosure: examples and witnesses

A toy JSON-LD processor: compaction and framing are trivial, the canonical form of a document is the
text it carries under `nq`.
-/

namespace VC.BBS

open GoMap
open VC.BBS.Spec
open VC.Proof (Bytes)

/-- Renames the first blank node of a row that starts with it (the shape did-go's
`TransformBlankNode` produces). -/
def bbToBlank (row : String) : String :=
  if hasPrefix row "_:c14n" then
    match split ' ' row with
    | a :: rest => joinC ' ' (("<urn:bnid:" ++ a ++ ">") :: rest)
    | [] => row
  else row

/-- The canonical text carried by a toy document. -/
def bbCanon (o : JObj) : Option String :=
  match get? o "nq" with
  | some (.str s) => some s
  | _ => none

/-- The toy library. -/
def bbEnv : BEnv where
  compact o := some o
  frame _ r := some r
  canon := bbCanon
  toBlank := bbToBlank
  blank s := s.toList.all (· == ' ')
  newProof p := match get? p "verificationMethod" with
    | some (.str v) => some (some v, [7])
    | _ => none
  resolve _ c := if c = "did:ex:1" then some [9] else none
  derive _ _ _ _ is := some (is.map (fun n => UInt8.ofNat n))
  b64 b := String.ofList (b.map (fun x => Char.ofNat (65 + x.toNat)))

def bbProof : JObj :=
  [("type", .str "BbsBlsSignature2020"), ("verificationMethod", .str "did:ex:1#k"),
   ("proofPurpose", .str "assertionMethod"), ("created", .str "now"), ("proofValue", .str "zz"),
   ("nq", .str "<p> <a> <b> .\n<p> <c> <d> .\n")]

def bbDoc : JObj :=
  [("nq", .str "<s> <name> \"A\" .\n_:c14n0 <age> \"3\" .\n<s> <knows> <t> .\n"),
   ("proof", .arr [.obj [("type", .str "Ed25519Signature2018")], .obj bbProof])]

def bbReveal : JObj := [("nq", .str "<urn:bnid:_:c14n0> <age> \"3\" .\n")]

/-- A reveal document with a statement that the document does not have. -/
def bbBadReveal : JObj := [("nq", .str "<s> <other> \"x\" .\n")]

/-- The toy disclosure succeeds and reveals the two proof statements and the second document
statement: the derived value spells the indexes 0, 1, 3. -/
theorem bb_disclosure : ∃ r, selectiveDisclosure bbEnv bbDoc bbReveal [1] = some r ∧
    ∃ q, get? r "proof" = some (.arr [.obj q]) ∧ get? q "proofValue" = some (.str "ABD") :=
  ⟨_, rfl, _, rfl,
    congrArg (fun s => some (Json.str s)) (show bbEnv.b64 _ = "ABD" by decide +kernel)⟩

/-- The hypothesis of `disclosure_spec` is met. -/
example : ∃ cdoc raw, bbEnv.compact bbDoc = some cdoc ∧ get? cdoc "proof" = some raw := by
  obtain ⟨r, h, -⟩ := bb_disclosure
  obtain ⟨c, raw, -, -, -, -, -, -, -, -, h1, h2, -⟩ := disclosure_spec bbEnv _ _ _ _ h
  exact ⟨c, raw, h1, h2⟩

def bbStmts : List String := ["<s> <name> \"A\" .", "_:c14n0 <age> \"3\" .", "<s> <knows> <t> ."]

theorem bb_stmts : splitLines bbEnv "<s> <name> \"A\" .\n_:c14n0 <age> \"3\" .\n<s> <knows> <t> .\n" =
    bbStmts := by decide +kernel

theorem bb_indexes : Indexes bbEnv 2 bbStmts ["<urn:bnid:_:c14n0> <age> \"3\" ."] [0, 1, 3] := by
  have := indexes_of bbEnv 2 bbStmts ["<urn:bnid:_:c14n0> <age> \"3\" ."]
  have e : (List.range 2 ++ (docIndexes (indexMap 0 (bbStmts.map bbEnv.toBlank) [])
      ["<urn:bnid:_:c14n0> <age> \"3\" ."]).map (fun i => 2 + i)) = [0, 1, 3] := by decide +kernel
  rw [e] at this
  exact this

theorem bb_blank_mem : ∀ r ∈ ["<urn:bnid:_:c14n0> <age> \"3\" ."], ∃ s ∈ bbStmts, bbEnv.toBlank s = r := by
  intro r hr
  rw [List.mem_singleton] at hr
  subst hr
  exact ⟨"_:c14n0 <age> \"3\" .", by decide +kernel, by decide +kernel⟩

/-- The hypotheses of `reveal_positions_partial` are met: 3 is revealed, 2 and 4 are not. -/
example : (3 ∈ [0, 1, 3]) ∧
    (∃ (d : Nat) (s : String), 3 = 2 + d ∧ bbStmts[d]? = some s ∧
      bbEnv.toBlank s ∈ ["<urn:bnid:_:c14n0> <age> \"3\" ."]) := by
  have hd : ∀ (d d' : Nat) (s s' : String), bbStmts[d]? = some s → bbStmts[d']? = some s' →
      bbEnv.toBlank s = bbEnv.toBlank s' → d = d' := by
    intro d d' s s' h h' e
    have hn : (bbStmts.map bbEnv.toBlank).Nodup := by decide +kernel
    have g : (bbStmts.map bbEnv.toBlank)[d]? = some (bbEnv.toBlank s) := by
      rw [List.getElem?_map, h]; rfl
    have g' : (bbStmts.map bbEnv.toBlank)[d']? = some (bbEnv.toBlank s) := by
      rw [List.getElem?_map, h', e]; rfl
    have hlt : d < (bbStmts.map bbEnv.toBlank).length := (List.getElem?_eq_some_iff.1 g).1
    exact (List.getElem?_inj hlt hn).1 (g.trans g'.symm)
  have := (reveal_positions_partial bbEnv 2 bbStmts _ _ bb_indexes bb_blank_mem hd 3).1 (by decide)
  rcases this with h | h
  · omega
  · exact ⟨by decide, h⟩

/-- The hypotheses of `verifier_sees_revealed` are met. -/
example : [0, 1, 3].map (fun i => (["<p> <a> <b> .", "<p> <c> <d> ."] ++ bbStmts)[i]?) =
    (verifierMessages bbEnv ("<p> <a> <b> .\n<p> <c> <d> ." ++ "\n" ++
      "<urn:bnid:_:c14n0> <age> \"3\" .\n")).map some := by
  apply verifier_sees_revealed bbEnv _ _ _ bbStmts ["<urn:bnid:_:c14n0> <age> \"3\" ."]
  · have := splitLines_spec bbEnv ("<p> <a> <b> .\n<p> <c> <d> ." ++ "\n")
    have e : splitLines bbEnv ("<p> <a> <b> .\n<p> <c> <d> ." ++ "\n") =
      ["<p> <a> <b> .", "<p> <c> <d> ."] := by decide +kernel
    rw [e] at this; exact this
  · have := splitLines_spec bbEnv "<urn:bnid:_:c14n0> <age> \"3\" .\n"
    have e : splitLines bbEnv "<urn:bnid:_:c14n0> <age> \"3\" .\n" =
      ["<urn:bnid:_:c14n0> <age> \"3\" ."] := by decide +kernel
    rw [e] at this; exact this
  · exact bb_indexes
  · exact bb_blank_mem
  · decide +kernel
  · decide +kernel
  · decide +kernel

/-- **C55 fails in general**: the reveal document selects one statement, which the document does not
have; the derivation succeeds and reveals the document's first statement, which was not selected. -/
theorem missing_statement_reveals_first :
    (∃ r q, selectiveDisclosure bbEnv bbDoc bbBadReveal [1] = some r ∧
      get? r "proof" = some (.arr [.obj q]) ∧ get? q "proofValue" = some (.str "ABC")) ∧
    ∃ is, Indexes bbEnv 2 bbStmts ["<s> <other> \"x\" ."] is ∧ 2 ∈ is ∧
      (["<p> <a> <b> .", "<p> <c> <d> ."] ++ bbStmts)[2]? = some "<s> <name> \"A\" ." :=
  ⟨⟨_, _, rfl, rfl,
    congrArg (fun s => some (Json.str s)) (show bbEnv.b64 _ = "ABC" by decide +kernel)⟩, _, indexes_of bbEnv 2 bbStmts _,
    missing_reveals_first bbEnv 2 bbStmts _ _ (indexes_of bbEnv 2 bbStmts _) "<s> <other> \"x\" ."
      (by decide) (by decide +kernel), rfl⟩

/-- The hypotheses of `fromBlank_restores_partial` are met. -/
example : fromBlank "<urn:bnid:_:c14n0> <age> \"3\" ." = "_:c14n0 <age> \"3\" ." :=
  fromBlank_restores_partial "" "0" " <age> \"3\" ." (by decide +kernel) (by
    intro u v h
    have := congrArg String.length h
    simp only [String.length_append] at this
    have e : "<urn:bnid:_:c14n".length = 16 := by decide +kernel
    have e' : "".length = 0 := by decide +kernel
    omega)

/-- **C79 fails in general**: of two blank nodes in one statement only the first gets its name back. -/
theorem second_blank_node_stays :
    fromBlank "<urn:bnid:_:c14n0> <knows> <urn:bnid:_:c14n1> ." =
      "_:c14n0 <knows> <urn:bnid:_:c14n1> ." := by decide +kernel

/-- `fromBlank_other` applies to a row without placeholder. -/
example : fromBlank "<s> <p> <o> ." = "<s> <p> <o> ." := by decide +kernel

end VC.BBS
