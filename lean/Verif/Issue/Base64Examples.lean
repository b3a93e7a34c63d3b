import Verif.Issue.Base64Laws
import Verif.Issue.SdMakeExamples
/-!
# C131: cases
-/

namespace VC.Iss

open VC.Vfy
open VC.Vfy.Spec
open VC.Proof (Bytes)
open VC.SDJWT (Ent Codec DistinctDigests)
open Spec

/-- The writer of C109's example, with Go's base64url. -/
noncomputable def gbLib : JwsLib := { sxLib with b64 := B64.encode B64.rawURL }

/-- Two bytes are the disclosure of a name, `{}` is no array. -/
def gbUnm (b : Bytes) : Option (List Json) := if b = [91, 93] then some [.str "s0", .str "name", .str "Ann"] else none

/-- The reader of C109's example, with Go's base64url. -/
def gbEnv : PEnv := { sxEnv with
  lib := { sxEnv.lib with parseJWS := fun _ _ => some (sxTok .v2).jws }
  jsonPart := isValidJSON sxEnv.payloadObj
  sd := { sxSd with decode := decodeDisclosure gbUnm } }

theorem gb_writer : GoWriter gbLib := fun _ => rfl

theorem gb_reader : GoReader gbEnv gbUnm := ⟨fun _ => rfl, fun _ => rfl, rfl⟩

/-- `[]` in base64url is `W10`; so is `W11` for a reader. -/
def gbEnts : List Ent := [⟨"W10", [.str "s0", .str "name", .str "Ann"]⟩]

theorem gb_codec : Codec gbEnv.sd gbEnts := by
  intro e he
  cases List.mem_singleton.1 he
  show decodeDisclosure gbUnm "W10" = _
  unfold decodeDisclosure
  rw [show B64.decode B64.rawURL "W10" = some [91, 93] by decide +kernel]
  rfl

/-- The hypotheses of `goReader_clean` and `goReader_noBrace` are met. -/
example : CleanTexts ["W10"] ∧ NoBrace gbEnv := ⟨goReader_clean gb_reader gb_codec, goReader_noBrace gb_reader⟩

/-- The token with real base64url: header byte 0, payload byte 2. -/
theorem gb_text : serialize gbLib false (sxTok .v2) =
    "AA" ++ "." ++ "Ag" ++ "." ++ B64.encode B64.rawURL ([9] ++ VC.Proof.exKey) := by
  unfold serialize
  simp only [Bool.false_eq_true, if_false, gb_writer _]
  rw [show B64.encode B64.rawURL (sxTok .v2).hdr = "AA" by decide +kernel,
    show B64.encode B64.rawURL (sxTok .v2).jws.payload = "Ag" by decide +kernel]
  rfl

/-- The hypotheses of `goReadable` are met. -/
example : Readable gbLib gbEnv (sxTok .v2) gbEnts :=
  goReadable gb_writer gb_reader rfl rfl (by intro h; cases h) rfl (by intro h; cases h)
    (by rw [← JWT.headers_iff gbEnv.lib]; decide +kernel) (by simp [gbEnts])
    ⟨rfl, by rw [gb_text]; decide +kernel⟩
    gb_codec (by unfold DistinctDigests; decide +kernel)

/-- A brace is refused, the object's text taken, also with a line break in it; the unused bits of the last
character are not looked at. -/
example : isValidJSON sxEnv.payloadObj "AA" = true ∧ isValidJSON sxEnv.payloadObj "A\nB" = true ∧
    isValidJSON sxEnv.payloadObj "{A" = false ∧ isValidJSON sxEnv.payloadObj "A" = false := by
  unfold isValidJSON
  rw [show B64.decode B64.rawURL "AA" = some [0] by decide +kernel,
    show B64.decode B64.rawURL "A\nB" = some [0] by decide +kernel,
    show B64.decode B64.rawURL "{A" = none by decide +kernel,
    show B64.decode B64.rawURL "A" = none by decide +kernel]
  exact ⟨rfl, rfl, rfl, rfl⟩

/-- `disclosure_round_trip`, with a marshaller that writes `[]`. -/
example : decodeDisclosure gbUnm (encodeDisclosure (fun _ => [91, 93]) [.str "s0", .str "name", .str "Ann"]) =
    some [.str "s0", .str "name", .str "Ann"] := disclosure_round_trip _ _ _ rfl

end VC.Iss
