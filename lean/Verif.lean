import Verif.Props.Decode
import Verif.Model.Writer
import Verif.Props.Writer
import Verif.Props.Literals
import Verif.Props.LiteralCode
import Verif.Props.LiteralTypes
import Verif.Lemmas.ExecSim
import Verif.Lemmas.ExecMono
import Verif.Lemmas.Sound
import Verif.Lemmas.Arranged
import Verif.Lemmas.Complete
import Verif.Lemmas.Progress
import Verif.Lemmas.ExecRel
import Verif.Props.Sample
import Verif.Props.Reader
import Verif.Props.Types
import Verif.Lemmas.Eval
import Verif.Props.Content
import Verif.Props.Choice
import Verif.Props.Fixed
import Verif.Props.FixedDeclared
import Verif.Props.Unenforced
import Verif.Props.ContentExamples
import Verif.Spec.Occurs
import Verif.Spec.Values
import Verif.Spec.Write
import Verif.Lemmas.Build
import Verif.Lemmas.Encode
import Verif.Lemmas.Transfer
import Verif.Props.RoundTrip
import Verif.Props.Balanced
import Verif.Props.Defects
import Verif.Props.Enums
import Verif.Props.Namespaces
import Verif.Model.VirtualName
import Verif.Props.Text
import Verif.Props.Alias
import Verif.Model.Node
import Verif.Model.Parse
import Verif.Model.Schema
import Verif.Lemmas.Parse
import Verif.Props.SchemaParts
import Verif.Props.Particles
import Verif.Props.SchemaSample
import Verif.Props.PartsSample
import Verif.Lemmas.ParseInv
import Verif.Spec.Grammar
import Verif.Props.FileSample
import Verif.Props.SchemaNames
import Verif.Spec.Files
import Verif.Spec.Numeral
import Verif.Lemmas.Grammar
import Verif.Props.Grammar
import Verif.Props.GrammarSample
import Verif.Lemmas.Strip
import Verif.Lemmas.StripParse
import Verif.Props.Foreign
import Verif.Props.Dependencies
import Verif.Lemmas.Deps
import Verif.Props.GenerateAll
import Verif.Props.SelfContained
import Verif.Model.Derive
import Verif.Props.Derive
import Verif.Lemmas.Terminates
import Verif.Props.Terminates
import Verif.Spec.Ascii
import Verif.Lemmas.NoPanic
import Verif.Props.NoPanic
import Verif.Spec.Blame
import Verif.Lemmas.Blame
import Verif.Props.ErrorPlaces
import Verif.Spec.Definitions
import Verif.Lemmas.Log
import Verif.Props.Definitions
import Verif.Props.DefinitionsSample
import Verif.Lemmas.RootFree
import Verif.Spec.Order
import Verif.Props.Order
import Verif.Props.OrderCode
import Verif.Props.OrderRun
import Verif.Props.OrderAll
import Verif.Spec.Finite
import Verif.Props.ReadTerminates
import Verif.Props.ReadTerminatesSample
import Verif.Spec.Typing
import Verif.Props.TypeSafety
import Verif.Spec.Buildable
import Verif.Props.Compiles
import Verif.Props.CompilesSample
import Verif.Spec.Generable
import Verif.Props.Generable
import Verif.Props.GenerableSample
import Verif.Spec.Legal
import Verif.Lemmas.Legal
import Verif.Lemmas.Quiet
import Verif.Props.Legal
import Verif.Props.LegalSample
import Verif.Props.LegalPanic
import Verif.Props.DocsSample
import Verif.Lemmas.Flat
import Verif.Spec.Components
import Verif.Lemmas.Components
import Verif.Lemmas.FlatNodes
import Verif.Props.TableOrigin
import Verif.Lemmas.FlatParse
import Verif.Spec.Validity
import Verif.Lemmas.Validity
import Verif.Props.EndToEnd
import Verif.Props.EndToEndSample
import Verif.Props.Extension
import Verif.Conformance.Base
import Verif.Conformance.Covered
import Verif.Conformance.Tests1
import Verif.Conformance.Tests2
import Verif.Conformance.Tests3
import Verif.Conformance.Tests4
import Verif.Lemmas.Local
import Verif.Props.Local
import Verif.Spec.Tree
import Verif.Lemmas.TreeParse
import Verif.Lemmas.TreeNodes
import Verif.Lemmas.TreeAll
import Verif.Lemmas.TreeFiles
import Verif.Lemmas.TreeValues
import Verif.Lemmas.TreeLoose
import Verif.Lemmas.TreeSound
import Verif.Lemmas.TreeComplete
import Verif.Lemmas.TreeCheck
import Verif.Lemmas.TreeSolid
import Verif.Lemmas.Grows
import Verif.Lemmas.GrowsFiles
import Verif.Props.ReadTerminatesFiles
import Verif.Props.TreeEndToEnd
import Verif.Conformance.Documents
import Verif.Props.TreeEndToEndSample
import Verif.Spec.Faults
import Verif.Lemmas.Faults
import Verif.Props.Faults
import Verif.Lemmas.CleanText
import Verif.Lemmas.TreeIndent
import Verif.Lemmas.XmlChars
import Verif.Lemmas.XmlEmit
import Verif.Lemmas.XmlText
import Verif.Lemmas.XmlTree
import Verif.Model.ApiText
import Verif.Model.XmlText
import Verif.Props.XmlText
import Verif.Props.XmlTextSample
import Verif.Props.Exact
import Verif.Spec.CleanText
import Verif.Spec.XmlText
import Verif.Model.SchemaText
import Verif.Spec.SchemaText
import Verif.Lemmas.SchemaText
import Verif.Props.SchemaText
import Verif.Props.SchemaTextSample
import Verif.Spec.Outcome
import Verif.Lemmas.OutcomeDet
import Verif.Lemmas.Outcome
import Verif.Props.Outcome
import Verif.Model.Display
import Verif.Props.Messages
import Verif.Spec.Presentation
import Verif.Lemmas.Presentation
import Verif.Lemmas.PresentationSim
import Verif.Lemmas.PresentationParse
import Verif.Props.Presentation
import Verif.Model.NodeRs
import Verif.Spec.NodeCells
import Verif.Props.NodeCells
import Verif.Props.AllOrder
import Verif.Spec.Wider
import Verif.Lemmas.WiderRead
import Verif.Lemmas.WiderWrite
import Verif.Lemmas.WiderGen
import Verif.Lemmas.WiderVals
import Verif.Props.Evolution
import Verif.Props.EvolutionBack
import Verif.Props.EvolutionSteps
import Verif.Props.EvolutionInj
import Verif.Spec.Shape
import Verif.Props.Shape
import Verif.Spec.Restated
import Verif.Props.Restated
import Verif.Lemmas.ParseClosed
import Verif.Lemmas.Again
import Verif.Spec.Again
import Verif.Props.Again
import Verif.Props.AgainSample
import Verif.Spec.Split
import Verif.Lemmas.Split
import Verif.Props.Split
import Verif.Props.SplitSample
import Verif.Spec.Moved
import Verif.Props.Moved
import Verif.Props.MovedSample
import Verif.Spec.Annotations
import Verif.Lemmas.Annotations
import Verif.Lemmas.AnnotationsParse
import Verif.Props.Annotations
import Verif.Props.AnnotationsSample
import Verif.Spec.Reorder
import Verif.Lemmas.Reorder
import Verif.Props.Reorder
import Verif.Props.ReorderSample
import Verif.Props.SimpleTypes
import Verif.Spec.Prefixes
import Verif.Lemmas.Prefixes
import Verif.Lemmas.PrefixesParse
import Verif.Props.Prefixes
import Verif.Props.PrefixesSample
import Verif.Spec.Tidy
import Verif.Lemmas.Tidy
import Verif.Lemmas.TidyParse
import Verif.Props.Tidy
import Verif.Props.TidySample
