import Verif.Model.Compiler
import Verif.Props.ByteSet
import Verif.Props.ByteClass
import Verif.Props.CharReach
import Verif.Props.Arith
import Verif.Props.Literal
import Verif.Props.Report
import Verif.Props.DumpCharClass
import Verif.Props.Parser
import Verif.Props.Tree
import Verif.Props.Graph
import Verif.Props.SmallWrite
import Verif.Props.Compiler
import Verif.Props.Compiled
import Verif.Props.DumpClass
import Verif.Props.ClassText
import Verif.Props.Dump
import Verif.Props.Expression
import Verif.Props.DumpUnique
import Verif.Props.DumpLimit
import Verif.Props.Profiles
import Verif.Props.Regions
import Verif.Props.OrderOfExpressions
import Verif.Props.Patterns
import Verif.Props.Writers
import Verif.Props.Checked
import Verif.Props.DotText
import Verif.Props.Resources
import Verif.Model.Pinned
import Verif.Props.Pinned
import Verif.Props.Union
import Verif.Spec.Utf8
import Verif.Model.Bytes
import Verif.Props.Bytes
import Verif.Props.Petgraph
import Verif.Props.BitVecStore
import Verif.Props.Stored
import Verif.Props.StoredCompiler
import Verif.Props.Hashed
import Verif.Props.AddLiteral
import Verif.Props.Borrows
import Verif.Props.Repaired
import Verif.Props.RepairedText
import Verif.Props.RepairedMore
import Verif.Props.TreeBorrows
import Verif.Props.RepairedPointer
import Verif.Model.CallStack
import Verif.Spec.CallStack
import Verif.Proofs.CallStack
import Verif.Props.CallStack
import Verif.Model.PointerWidth
import Verif.Props.PointerWidth
import Verif.Model.Work
import Verif.Spec.Work
import Verif.Props.Work
import Verif.Spec.Aliasing
import Verif.Props.Aliasing
import Verif.Spec.Reference
import Verif.Proofs.Reference
import Verif.Props.Reference
import Verif.Model.Completed
import Verif.Proofs.Glushkov
import Verif.Proofs.Completed
import Verif.Props.Completed
import Verif.Props.SameTree
import Verif.Model.Mended
import Verif.Spec.Mended
import Verif.Proofs.Mended
import Verif.Props.Mended
import Verif.Props.Derived
import Verif.Model.Whole
import Verif.Proofs.Whole
import Verif.Props.Whole
import Verif.Spec.Memory
import Verif.Model.Memory
import Verif.Proofs.MemoryLogic
import Verif.Proofs.MemoryTame
import Verif.Proofs.MemoryParse
import Verif.Proofs.MemoryCompile
import Verif.Proofs.MemoryGraph
import Verif.Proofs.MemoryAll
import Verif.Props.Memory
import Verif.Spec.Witness
import Verif.Props.Settings
import Verif.Spec.Builders
import Verif.Props.Builders
import Verif.Props.ClassExact
import Verif.Spec.Express
import Verif.Props.Express
import Verif.Props.Replace
import Verif.Spec.TreeShape
import Verif.Props.TreeShape
import Verif.Spec.Skeleton
import Verif.Props.Skeleton
import Verif.Spec.WhichTries
import Verif.Props.WhichTries
import Verif.Spec.Results
import Verif.Props.Results
import Verif.Model.Finder
import Verif.Spec.Kept
import Verif.Props.Finder
import Verif.Model.AhoCorasick
import Verif.Props.AhoCorasick
import Verif.Props.GraphSize
import Verif.Spec.Regex
import Verif.Props.Regex
import Verif.Spec.ContextFree
import Verif.Props.ContextFree
import Verif.Spec.DebugForm
import Verif.Props.DebugForm
import Verif.Check.RepoTests
