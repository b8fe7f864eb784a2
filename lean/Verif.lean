import Verif.Props.Path
import Verif.Props.Entry
import Verif.Props.Parser
import Verif.Props.Expression
import Verif.Props.Convert
import Verif.Props.Size
import Verif.Props.Types
import Verif.Props.Glob
import Verif.Props.Walk
import Verif.Props.Ignore
import Verif.Props.ArgParse
import Verif.Props.Arguments
import Verif.Props.Registry
import Verif.Props.Search
import Verif.Props.Field
import Verif.Props.Template
import Verif.Props.Console
import Verif.Props.Color
import Verif.Spec.Colors
import Verif.Props.Colors
import Verif.Model.Link
import Verif.Spec.Link
import Verif.Props.Link
import Verif.Model.Halt
import Verif.Spec.Halt
import Verif.Lemmas.Halt
import Verif.Lemmas.HaltEnd
import Verif.Props.Halt
import Verif.Props.WholeHalt
import Verif.Props.Json
import Verif.Props.Print
import Verif.Props.Limit
import Verif.Props.Sort
import Verif.Props.Natural
import Verif.Props.Count
import Verif.Props.Exec
import Verif.Props.Cache
import Verif.Props.Time
import Verif.Props.Epoch
import Verif.Props.Status
import Verif.Props.Reference
import Verif.Props.Git
import Verif.Props.IgnorePlugin
import Verif.Props.Find
import Verif.Props.Grep
import Verif.Props.Main
import Verif.Props.OutputFile
import Verif.Props.Immediate
import Verif.Props.Whole
import Verif.Props.Api
import Verif.Props.Pool
import Verif.Props.Commands
import Verif.Props.Introspect
import Verif.Props.Media
import Verif.Props.Reading
import Verif.Props.Failure
import Verif.Props.Os
import Verif.Props.Relate
import Verif.Props.Loading
import Verif.Props.Setup
import Verif.Props.Hash
import Verif.Props.Message
import Verif.Model.Plugins
import Verif.Props.Plugins
import Verif.Model.Output
import Verif.Props.Output
import Verif.Model.Help
import Verif.Spec.Help
import Verif.Props.Help
import Verif.Model.Manual
import Verif.Model.ManualText
import Verif.Spec.Manual
import Verif.Props.Manual
import Verif.Spec.Patterns
import Verif.Props.Patterns
import Verif.Props.Exit
import Verif.Model.HelpText
import Verif.Props.HelpText
import Verif.Model.Ending
import Verif.Spec.Ending
import Verif.Props.Ending
import Verif.Spec.Part
import Verif.Props.Part
import Verif.Spec.Again
import Verif.Props.Again
import Verif.Model.Needed
import Verif.Spec.Needed
import Verif.Props.Needed
import Verif.Model.Start
import Verif.Spec.Start
import Verif.Props.Start
import Verif.Model.Elf
import Verif.Spec.Elf
import Verif.Props.Elf
import Verif.Model.Changed
import Verif.Spec.Changed
import Verif.Props.Changed
import Verif.Model.PathGlob
import Verif.Spec.PathGlob
import Verif.Props.PathGlob
import Verif.Model.StatAttr
import Verif.Spec.Examples
import Verif.Props.Examples
import Verif.Spec.OptionOrder
import Verif.Props.OptionOrder
import Verif.Props.Instead
import Verif.Spec.Accepted
import Verif.Props.Accepted
import Verif.Spec.ColorMode
import Verif.Props.ColorMode
import Verif.Spec.Look
import Verif.Props.Look
import Verif.Model.HideWarning
import Verif.Spec.HideWarning
import Verif.Props.HideWarning
import Verif.Props.Suite
import Verif.Model.CollectHalt
import Verif.Spec.CollectHalt
import Verif.Props.CollectHalt
import Verif.Model.Barrier
import Verif.Spec.Barrier
import Verif.Props.Barrier
import Verif.Props.BarrierProgress
import Verif.Props.Interrupt
import Verif.Props.Attributes
import Verif.Props.Data
import Verif.Props.Iterate
import Verif.Props.Profile
import Verif.Props.Absolute
import Verif.Props.Narrow
