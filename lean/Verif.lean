import Verif.Base.GoMap
import Verif.Base.Json
import Verif.Base.Strconv
import Verif.Status.Props
import Verif.IdentityHub.Props
import Verif.SDJWT.DiscloseOrder
import Verif.Base.Str
import Verif.SDJWT.Combined
import Verif.Proof.Props
import Verif.Proof.Tables
import Verif.JWT.Props
import Verif.SDJWT.VerifierProps
import Verif.Util.JsonUtil
import Verif.SDJWT.IssuerExamples
import Verif.SDJWT.FromVCExamples
import Verif.Presexch.RequirementProps
import Verif.Presexch.Iterator
import Verif.Presexch.Apply
import Verif.Presexch.ApplyState
import Verif.Presexch.ConstraintsProps
import Verif.Presexch.Match
import Verif.Presexch.Merge
import Verif.Presexch.Combinatorics
import Verif.Mem.Conc
import Verif.Verifiable.FieldsProps
import Verif.Verifiable.DataURL
import Verif.Verifiable.SchemaCache
import Verif.Verifiable.Modified
import Verif.Verifiable.JWTRoundTrip
import Verif.DataIntegrity.Model
import Verif.DataIntegrity.Spec
import Verif.DataIntegrity.Lemmas
import Verif.DataIntegrity.Props
import Verif.DataIntegrity.ProofSet
import Verif.DataIntegrity.Examples
import Verif.DataIntegrity.RoundTrip
import Verif.Verifiable.Parse
import Verif.Verifiable.ParseSpec
import Verif.Verifiable.ParseProps
import Verif.Verifiable.ParseMain
import Verif.Verifiable.ParseParts
import Verif.Verifiable.ParseExamples
import Verif.Verifiable.Presentation
import Verif.Verifiable.PresentationSpec
import Verif.Verifiable.PresentationProps
import Verif.Verifiable.PresentationMain
import Verif.Verifiable.PresentationRelax
import Verif.Verifiable.PresentationExamples
import Verif.Verifiable.Options
import Verif.Verifiable.Disclosure
import Verif.Verifiable.DisclosureMain
import Verif.Verifiable.DisclosureExamples
import Verif.Verifiable.PresMarshal
import Verif.Verifiable.PresMarshalProps
import Verif.Verifiable.PresMarshalCred
import Verif.Verifiable.PresMarshalMain
import Verif.Verifiable.PresMarshalExamples
import Verif.Verifiable.PresentationMirror
import Verif.Verifiable.RelatedResource
import Verif.Verifiable.RelatedResourceProps
import Verif.Verifiable.RelatedResourceExamples
import Verif.DidConfig.Examples
import Verif.BBS.Examples
import Verif.LDP.Examples
import Verif.Cwt.Examples
import Verif.Issue.Model
import Verif.Issue.JwtProps
import Verif.Issue.CredProps
import Verif.Issue.PresProps
import Verif.Issue.Examples
import Verif.Presexch.LimitSpec
import Verif.Presexch.Limit
import Verif.Presexch.LimitParts
import Verif.Presexch.LimitWrites
import Verif.Presexch.LimitRenumber
import Verif.Presexch.LimitProps
import Verif.Presexch.LimitShow
import Verif.Presexch.LimitExamples
import Verif.Presexch.LimitSD
import Verif.Presexch.LimitSDExamples
import Verif.Presexch.LimitReveal
import Verif.Presexch.LimitRevealExamples
import Verif.Presexch.EndToEnd
import Verif.Presexch.EndToEndProps
import Verif.Presexch.EndToEndMain
import Verif.Presexch.EndToEndExamples
import Verif.Presexch.EndToEndLimit
import Verif.Presexch.EndToEndShown
import Verif.Presexch.EndToEndLimitExamples
import Verif.Presexch.EndToEndShape
import Verif.Presexch.Report
import Verif.Presexch.ReportProps
import Verif.Presexch.ReportExamples
import Verif.Issue.Marshal
import Verif.Issue.LdMarshal
import Verif.Issue.LdPres
import Verif.Issue.LdMarshalExamples
import Verif.Issue.MarshalOther
import Verif.SDJWT.Restrict
import Verif.Verifiable.SdMarshal
import Verif.Verifiable.SdMarshalExamples
import Verif.Verifiable.PresMarshalSd
import Verif.Verifiable.PresMarshalSdExamples
import Verif.SDJWT.FromVCShown
import Verif.SDJWT.ParseOptions
import Verif.SDJWT.IssueOptions
import Verif.SDJWT.IssueOptionsExamples
import Verif.SDJWT.IssueFail
import Verif.SDJWT.IssueFailExamples
import Verif.Verifiable.SdOptions
import Verif.Verifiable.RefineAgree
import Verif.Verifiable.SdMake
import Verif.Verifiable.Redisplay
import Verif.Verifiable.RedisplayExamples
import Verif.Issue.SdMake
import Verif.Issue.SdMakeExamples
import Verif.Issue.SdForge
import Verif.Issue.SdForgeExamples
import Verif.Schema.Model
import Verif.Schema.Docs
import Verif.Schema.Read
import Verif.Schema.Spec
import Verif.Schema.Props
import Verif.Schema.Exact
import Verif.Schema.Select
import Verif.Schema.Main
import Verif.Schema.DefDocs
import Verif.Schema.DefRead
import Verif.Presexch.Validate
import Verif.Presexch.ValidateProps
import Verif.Presexch.ValidateExact
import Verif.Presexch.ValidateMain
import Verif.Presexch.Validated
import Verif.Presexch.ValidatedExamples
import Verif.Presexch.ValidatedSent
import Verif.Presexch.SchemaContext
import Verif.Presexch.Shared
import Verif.Presexch.SharedSafe
import Verif.Presexch.SharedSame
import Verif.Presexch.SharedExamples
import Verif.Mem.Alias
import Verif.Mem.Race
import Verif.Time.Calendar
import Verif.Time.Rfc
import Verif.Time.RfcProps
import Verif.Time.RfcFmt
import Verif.Time.Clock
import Verif.Time.Integrity
import Verif.Time.Wrapper
import Verif.SDJWT.IssueTexts
import Verif.Proof.Registry
import Verif.LDP.Registry
import Verif.LDP.DidDI
import Verif.Verifiable.CloneSlices
import Verif.Verifiable.SharedMaps
import Verif.Verifiable.ClaimNames
import Verif.Verifiable.ClaimNamesMain
import Verif.Base.Base64
import Verif.Issue.Base64Laws
import Verif.Issue.Base64Examples
import Verif.Status.Bitstring
import Verif.IdentityHub.Queries
import Verif.Status.Net
import Verif.Status.NetProps
import Verif.Status.NetExamples
import Verif.Base.Codec
import Verif.SDJWT.Hiding
import Verif.SDJWT.HidingV5
import Verif.SDJWT.HidingExamples
import Verif.SDJWT.Forge
import Verif.SDJWT.ForgeExamples
import Verif.Num.Float
import Verif.Num.Decimal
import Verif.Num.Keep
import Verif.DataIntegrity.AnySuite
import Verif.Presexch.Convert
import Verif.SDJWT.Dates
import Verif.SDJWT.DatesExamples
import Verif.SDJWT.HolderBinding
import Verif.SDJWT.HolderBindingExamples
import Verif.SDJWT.Reissue
import Verif.DataIntegrity.Text
import Verif.DataIntegrity.TextMain
import Verif.DidConfig.Client
import Verif.Verifiable.HolderUnchecked
