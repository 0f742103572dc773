import Verif.Props.Encoding
import Verif.Props.DbChar
import Verif.Props.Relation
import Verif.Props.Chunk
import Verif.Props.Records
import Verif.Props.InstructionMap
import Verif.Props.DecompileCalc
import Verif.Props.Terminates
import Verif.Props.Hangs
import Verif.Props.Reordered
import Verif.Props.Assemble
import Verif.Props.Schema
import Verif.Props.Segments
import Verif.Props.Layout
import Verif.Props.Generate
import Verif.Props.Database
import Verif.Props.Find
import Verif.Props.Related
import Verif.Props.CalcParser
import Verif.Props.CalcArgs
import Verif.Props.CalcLex
import Verif.Props.CalcEval
import Verif.Props.Vm
import Verif.Props.Isolation
import Verif.Props.Script
import Verif.Props.ChunkFormat
import Verif.Props.VmData
import Verif.Props.BurnScript
import Verif.Props.Burn
import Verif.Props.FileContents
import Verif.Props.Main
import Verif.Props.ExitFlag
import Verif.Props.Termination
import Verif.Props.Reproducible
import Verif.Props.CallOrder
import Verif.Props.MultiHop
import Verif.Props.DamagedFile
import Verif.Props.Sources
import Verif.Props.Placement
import Verif.Props.Compare
import Verif.Props.Functions
import Verif.Props.BurnTokens
import Verif.Props.UnknownContent
import Verif.Props.MultiHopExact
import Verif.Props.Counting
import Verif.Props.WriteAssert
import Verif.Props.Readers
import Verif.Props.Resolves
import Verif.Props.Outcome
import Verif.Props.CalcLayout
import Verif.Props.Malformed
import Verif.Props.AcceptedFiles
import Verif.Props.Cut
import Verif.Props.StoredNumbers
import Verif.Checks.RepoTests
import Verif.Checks.BasicLoop
import Verif.Props.Messages
import Verif.Props.Provenance
import Verif.Props.ScriptProvenance
import Verif.Props.SourceProvenance
import Verif.Props.Inspect
import Verif.Model.ScriptWarnings
import Verif.Spec.ScriptWarnings
import Verif.Proofs.ScriptWarnings
import Verif.Proofs.ScriptKept
import Verif.Proofs.BurnWarnings
import Verif.Proofs.DraftWarnings
import Verif.Props.ScriptWarnings
import Verif.Model.Console
import Verif.Spec.Console
import Verif.Proofs.Console
import Verif.Props.Console
import Verif.Model.Screen
import Verif.Spec.Screen
import Verif.Proofs.Screen
import Verif.Props.Screen
import Verif.Model.CalcNotes
import Verif.Spec.CalcNotes
import Verif.Proofs.CalcNotes
import Verif.Props.CalcNotes
import Verif.Model.VmNotes
import Verif.Spec.VmNotes
import Verif.Proofs.VmNotes
import Verif.Props.VmNotes
import Verif.Spec.StoredCalc
import Verif.Proofs.StoredCalc
import Verif.Props.StoredCalc
import Verif.Spec.FoundSets
import Verif.Proofs.FoundSets
import Verif.Props.FoundSets
import Verif.Spec.DecompiledTests
import Verif.Proofs.DecompiledTests
import Verif.Props.DecompiledTests
import Verif.Model.DecompilerOutput
import Verif.Spec.DecompilerOutput
import Verif.Proofs.DecompilerOutput
import Verif.Proofs.DecompilerLines
import Verif.Props.DecompilerOutput
import Verif.Spec.Crash
import Verif.Proofs.Crash
import Verif.Proofs.CrashStep
import Verif.Props.Crash
import Verif.Spec.Means
import Verif.Proofs.Means
import Verif.Props.Means
import Verif.Spec.Warns
import Verif.Proofs.Warns
import Verif.Props.Warns
import Verif.Spec.Contents
import Verif.Proofs.Contents
import Verif.Props.Contents
import Verif.Model.AssemblerOutput
import Verif.Spec.AssemblerOutput
import Verif.Proofs.AssemblerOutput
import Verif.Props.AssemblerOutput
import Verif.Spec.CalcReading
import Verif.Proofs.CalcReading
import Verif.Props.CalcReading
import Verif.Spec.CalcWords
import Verif.Proofs.CalcWords
import Verif.Props.CalcWords
import Verif.Spec.CalcColons
import Verif.Proofs.CalcColons
import Verif.Props.CalcColons
import Verif.Spec.ScriptCut
import Verif.Proofs.ScriptCut
import Verif.Props.ScriptCut
import Verif.Spec.ScriptGrammar
import Verif.Proofs.ScriptGrammar
import Verif.Props.ScriptGrammar
import Verif.Spec.ProgramCut
import Verif.Proofs.ProgramCut
import Verif.Props.ProgramCut
import Verif.Spec.ProgramGrammar
import Verif.Proofs.ProgramGrammar
import Verif.Props.ProgramGrammar
import Verif.Spec.ScriptSays
import Verif.Proofs.ScriptSays
import Verif.Props.ScriptSays
import Verif.Spec.CalcBytes
import Verif.Proofs.CalcBytes
import Verif.Props.CalcBytes
import Verif.Spec.StepDoes
import Verif.Proofs.StepDoes
import Verif.Props.StepDoes
import Verif.Spec.Verdicts
import Verif.Proofs.Verdicts
import Verif.Props.Verdicts
import Verif.Spec.Endings
import Verif.Proofs.Endings
import Verif.Props.Endings
import Verif.Spec.Invocation
import Verif.Proofs.Invocation
import Verif.Props.Invocation
import Verif.Spec.CalcReport
import Verif.Proofs.CalcReport
import Verif.Props.CalcReport
import Verif.Spec.Crashes
import Verif.Proofs.Crashes
import Verif.Props.Crashes
import Verif.Spec.InvocationCrash
import Verif.Proofs.InvocationCrash
import Verif.Props.InvocationCrash
import Verif.Spec.Characters
import Verif.Props.Characters
