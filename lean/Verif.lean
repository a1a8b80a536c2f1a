import Verif.Props.Render
import Verif.Props.Parser
import Verif.Props.Roundtrip
import Verif.Props.Rendered
import Verif.Props.Layout
import Verif.Props.Manager
import Verif.Props.Hydration
import Verif.Props.Macros
import Verif.Props.Inline
import Verif.Props.Yew
import Verif.Props.Media
import Verif.Props.Context
import Verif.Props.Template
import Verif.Props.Threads
import Verif.Props.Browser
import Verif.Props.Select
import Verif.Props.SelectGlobal
import Verif.Props.Shared
import Verif.Props.Depth
import Verif.Props.SelectDeep
import Verif.Props.Value
import Verif.Props.Written
import Verif.Tests.Parser
import Verif.Tests.Render
import Verif.Tests.Macros
import Verif.Tests.Manager
import Verif.Props.Errors
import Verif.Props.Size
import Verif.Props.Sources
import Verif.Props.Documented
import Verif.Spec.Rejected
import Verif.Proofs.Rejected
import Verif.Props.Readable
import Verif.Props.Classes
import Verif.Props.AppPage
import Verif.Props.Checked
import Verif.Props.Styled
import Verif.Props.Rejected
import Verif.Model.Evaluation
import Verif.Spec.Evaluation
import Verif.Proofs.Evaluation
import Verif.Proofs.Interpolated
import Verif.Props.Evaluation
import Verif.Model.Steps
import Verif.Proofs.Steps
import Verif.Proofs.StepsRec
import Verif.Props.Steps
import Verif.Model.Report
import Verif.Spec.Report
import Verif.Proofs.Report
import Verif.Props.Report
import Verif.Props.MacroPage
import Verif.Props.Join
import Verif.Spec.Mistakes
import Verif.Proofs.Mistakes
import Verif.Props.Mistakes
import Verif.Spec.Page
import Verif.Proofs.WholePage
import Verif.Props.WholePage
import Verif.Spec.Cascade
import Verif.Proofs.Cascade
import Verif.Props.Cascade
import Verif.Model.LiteralErrors
import Verif.Spec.LiteralErrors
import Verif.Proofs.LiteralErrors
import Verif.Props.LiteralErrors
import Verif.Spec.Hydrated
import Verif.Proofs.Hydrated
import Verif.Props.Hydrated
import Verif.Props.HydratedGlobal
import Verif.Spec.Shadow
import Verif.Proofs.Shadow
import Verif.Props.Shadow
import Verif.Spec.Animation
import Verif.Proofs.Animation
import Verif.Props.Agree
import Verif.Props.Animation
import Verif.Spec.ReadBack
import Verif.Proofs.ReadBack
import Verif.Props.ReadBack
import Verif.Spec.GlobalText
import Verif.Proofs.GlobalText
import Verif.Props.GlobalText
import Verif.Spec.GlobalPage
import Verif.Proofs.GlobalPage
import Verif.Props.GlobalPage
import Verif.Spec.FirstUses
import Verif.Proofs.FirstUses
import Verif.Props.FirstUses
import Verif.Spec.Data
import Verif.Props.Data
import Verif.Props.DebugCheck
import Verif.Props.Accepted
import Verif.Props.Failures
import Verif.Props.RenderStack
import Verif.Props.RenderSteps
import Verif.Props.Counts
import Verif.Props.Growth
import Verif.Props.Compact
import Verif.Props.Progress
import Verif.Props.Writer
import Verif.Props.Locks
import Verif.Props.Requests
import Verif.Props.Random
import Verif.Props.Served
import Verif.Props.Answer
import Verif.Props.Builder
import Verif.Props.Wrap
import Verif.Props.BuilderThreads
import Verif.Props.Prefix
import Verif.Props.Stuck
