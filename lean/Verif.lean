import Verif.Lemmas.AdvancedCore
import Verif.Lemmas.AdvancedFill
import Verif.Lemmas.AdvancedGeometry
import Verif.Lemmas.AdvancedGood
import Verif.Lemmas.AdvancedOffsets
import Verif.Lemmas.AdvancedParse
import Verif.Lemmas.AdvancedPropagate
import Verif.Lemmas.Agree
import Verif.Lemmas.ArchiveAny
import Verif.Lemmas.ArchiveBiases
import Verif.Lemmas.ArchiveChecked
import Verif.Lemmas.ArchiveClaims
import Verif.Lemmas.ArchiveFile
import Verif.Lemmas.ArchiveKinds
import Verif.Lemmas.ArchiveLoad
import Verif.Lemmas.ArchiveText
import Verif.Lemmas.ArrayState
import Verif.Lemmas.BiasValues
import Verif.Lemmas.BitSets
import Verif.Lemmas.Blocks
import Verif.Lemmas.Build
import Verif.Lemmas.BuildInv
import Verif.Lemmas.Catalog
import Verif.Lemmas.CatalogDecisions
import Verif.Lemmas.CatalogLift
import Verif.Lemmas.Collection
import Verif.Lemmas.Combined
import Verif.Lemmas.ConcatenateFunction
import Verif.Lemmas.ConstantArrays
import Verif.Lemmas.ConstructRename
import Verif.Lemmas.Declared
import Verif.Lemmas.DeclaredWhole
import Verif.Lemmas.Dedup
import Verif.Lemmas.Drift
import Verif.Lemmas.DriftArrays
import Verif.Lemmas.Equality
import Verif.Lemmas.ExpressionStatements
import Verif.Lemmas.ExpressionSteps
import Verif.Lemmas.ExpressionValues
import Verif.Lemmas.Expressions
import Verif.Lemmas.Floating
import Verif.Lemmas.Generate
import Verif.Lemmas.GenerateBins
import Verif.Lemmas.GenerateCqm
import Verif.Lemmas.GenerateDisjoint
import Verif.Lemmas.GenerateFlow
import Verif.Lemmas.GenerateJobShop
import Verif.Lemmas.GenerateJobShopMain
import Verif.Lemmas.GenerateKnapsack
import Verif.Lemmas.GenerateQap
import Verif.Lemmas.GenerateRouting
import Verif.Lemmas.GenerateTsp
import Verif.Lemmas.GenerateWindows
import Verif.Lemmas.Getitem
import Verif.Lemmas.GetitemNow
import Verif.Lemmas.Graph
import Verif.Lemmas.GraphOps
import Verif.Lemmas.GraphRemove
import Verif.Lemmas.IndexedCode
import Verif.Lemmas.IndexedValues
import Verif.Lemmas.Indexing
import Verif.Lemmas.IndexingReplay
import Verif.Lemmas.IndexingWindow
import Verif.Lemmas.InferIndices
import Verif.Lemmas.Jammed
import Verif.Lemmas.Lists
import Verif.Lemmas.Networkx
import Verif.Lemmas.NodeBase
import Verif.Lemmas.NumpyValues
import Verif.Lemmas.NumpyZip
import Verif.Lemmas.Oracle
import Verif.Lemmas.Orderly
import Verif.Lemmas.Permutation
import Verif.Lemmas.Program
import Verif.Lemmas.ProgramCheck
import Verif.Lemmas.ProgramFacts
import Verif.Lemmas.ProgramFileLoad
import Verif.Lemmas.ProgramFileRows
import Verif.Lemmas.ProgramFileStep
import Verif.Lemmas.ProgramFileWhole
import Verif.Lemmas.ProgramIndexed
import Verif.Lemmas.ProgramMade
import Verif.Lemmas.ProgramRealises
import Verif.Lemmas.ProgramRows
import Verif.Lemmas.ProgramSizes
import Verif.Lemmas.ProgramStates
import Verif.Lemmas.ProgramUnsliced
import Verif.Lemmas.ProgramWhole
import Verif.Lemmas.Quadratic
import Verif.Lemmas.QuadraticArguments
import Verif.Lemmas.Refused
import Verif.Lemmas.Related
import Verif.Lemmas.Replay
import Verif.Lemmas.Rounding
import Verif.Lemmas.Script
import Verif.Lemmas.ScriptAdvanced
import Verif.Lemmas.ScriptBasic
import Verif.Lemmas.ScriptDynamic
import Verif.Lemmas.ScriptGraph
import Verif.Lemmas.ScriptMore
import Verif.Lemmas.ScriptOps
import Verif.Lemmas.ScriptOrders
import Verif.Lemmas.ScriptPermutation
import Verif.Lemmas.ScriptProves
import Verif.Lemmas.ScriptRules
import Verif.Lemmas.ScriptSlices
import Verif.Lemmas.ScriptSum
import Verif.Lemmas.ScriptWhole
import Verif.Lemmas.SharedIndex
import Verif.Lemmas.SizeRename
import Verif.Lemmas.StableSort
import Verif.Lemmas.StateSize
import Verif.Lemmas.TopoSort
import Verif.Lemmas.ViewStrides
import Verif.Lemmas.Whole
import Verif.Lemmas.WindowFails
import Verif.Lemmas.WindowLoops
import Verif.Lemmas.WindowPlaces
import Verif.Lemmas.WindowRules
import Verif.Lemmas.WindowSchedule
import Verif.Lemmas.Workspace
import Verif.Model.Archive
import Verif.Model.ArrayState
import Verif.Model.Blocks
import Verif.Model.Bounds
import Verif.Model.Build
import Verif.Model.Catalog
import Verif.Model.Collection
import Verif.Model.CollectionArguments
import Verif.Model.Comparisons
import Verif.Model.ConcatenateFunction
import Verif.Model.ConstantArrays
import Verif.Model.Constants
import Verif.Model.Counts
import Verif.Model.Declared
import Verif.Model.Dedup
import Verif.Model.DefaultMove
import Verif.Model.Disjoint
import Verif.Model.Equality
import Verif.Model.Escape
import Verif.Model.Expressions
import Verif.Model.Floating
import Verif.Model.Fraction
import Verif.Model.Generators
import Verif.Model.GeneratorsCqm
import Verif.Model.GeneratorsDisjoint
import Verif.Model.GeneratorsFlow
import Verif.Model.GeneratorsRouting
import Verif.Model.GeneratorsWindows
import Verif.Model.Getitem
import Verif.Model.GetitemCall
import Verif.Model.Graph
import Verif.Model.History
import Verif.Model.IndexedCode
import Verif.Model.Iteration
import Verif.Model.Iterator
import Verif.Model.LazyState
import Verif.Model.Networkx
import Verif.Model.NodeBase
import Verif.Model.Nodes.AdvancedIndexing
import Verif.Model.Nodes.AdvancedShape
import Verif.Model.Nodes.BasicIndexing
import Verif.Model.Nodes.BasicSizes
import Verif.Model.Nodes.Binary
import Verif.Model.Nodes.BinaryShape
import Verif.Model.Nodes.Concatenate
import Verif.Model.Nodes.InferIndices
import Verif.Model.Nodes.Nary
import Verif.Model.Nodes.PartialReduce
import Verif.Model.Nodes.Permutation
import Verif.Model.Nodes.Quadratic
import Verif.Model.Nodes.Reduce
import Verif.Model.Nodes.ReshapeSize
import Verif.Model.Nodes.Unary
import Verif.Model.Nodes.UnaryShape
import Verif.Model.Nodes.Where
import Verif.Model.Nodes.WhereShape
import Verif.Model.NumberArguments
import Verif.Model.Numbers
import Verif.Model.Objective
import Verif.Model.Operations
import Verif.Model.Oracle
import Verif.Model.Power
import Verif.Model.Program
import Verif.Model.ProgramFile
import Verif.Model.ProgramStates
import Verif.Model.Programs
import Verif.Model.Propose
import Verif.Model.PyFeasible
import Verif.Model.PyModel
import Verif.Model.PyStates
import Verif.Model.QuadraticArguments
import Verif.Model.Refused
import Verif.Model.Script
import Verif.Model.Sessions
import Verif.Model.Shape
import Verif.Model.SizeInfo
import Verif.Model.Slice
import Verif.Model.StateFile
import Verif.Model.StateSize
import Verif.Model.States
import Verif.Model.TypedArguments
import Verif.Model.Workspace
import Verif.Props.AdvancedIndexing
import Verif.Props.AdvancedShape
import Verif.Props.Archive
import Verif.Props.ArrayState
import Verif.Props.BasicIndexing
import Verif.Props.BasicIndexingDynamic
import Verif.Props.BasicSizes
import Verif.Props.Binary
import Verif.Props.BinaryShape
import Verif.Props.BitSets
import Verif.Props.Blocks
import Verif.Props.Bounds
import Verif.Props.BoundsReduce
import Verif.Props.Build
import Verif.Props.Collection
import Verif.Props.CollectionArguments
import Verif.Props.Comparisons
import Verif.Props.Concatenate
import Verif.Props.ConcatenateFunction
import Verif.Props.ConstantArrays
import Verif.Props.Constants
import Verif.Props.Counts
import Verif.Props.Declared
import Verif.Props.Dedup
import Verif.Props.DefaultMove
import Verif.Props.Descendants
import Verif.Props.Drift
import Verif.Props.DriftNary
import Verif.Props.DriftNaryProduct
import Verif.Props.DriftPartial
import Verif.Props.DriftProduct
import Verif.Props.Equality
import Verif.Props.Escape
import Verif.Props.Expressions
import Verif.Props.Floating
import Verif.Props.FloatingNary
import Verif.Props.FloatingPartial
import Verif.Props.FloatingQuadratic
import Verif.Props.Fraction
import Verif.Props.Generators
import Verif.Props.GeneratorsAssignment
import Verif.Props.GeneratorsCqm
import Verif.Props.GeneratorsFlow
import Verif.Props.GeneratorsJobShop
import Verif.Props.GeneratorsPacking
import Verif.Props.GeneratorsRouting
import Verif.Props.GeneratorsWindows
import Verif.Props.Getitem
import Verif.Props.GetitemRejected
import Verif.Props.Graph
import Verif.Props.IndexedCode
import Verif.Props.InferIndices
import Verif.Props.Integral
import Verif.Props.Iteration
import Verif.Props.Iterator
import Verif.Props.LazyState
import Verif.Props.Lists
import Verif.Props.Modulus
import Verif.Props.Nary
import Verif.Props.Networkx
import Verif.Props.NumberArguments
import Verif.Props.Numbers
import Verif.Props.Objective
import Verif.Props.Oracle
import Verif.Props.PartialReduce
import Verif.Props.Permutation
import Verif.Props.Power
import Verif.Props.ProgramFile
import Verif.Props.ProgramStates
import Verif.Props.Programs
import Verif.Props.Propose
import Verif.Props.PyFeasible
import Verif.Props.PyStates
import Verif.Props.Quadratic
import Verif.Props.QuadraticArguments
import Verif.Props.Reduce
import Verif.Props.Refused
import Verif.Props.ReshapeSize
import Verif.Props.Sessions
import Verif.Props.Shape
import Verif.Props.SizeInfo
import Verif.Props.Slice
import Verif.Props.StateFile
import Verif.Props.StateSize
import Verif.Props.States
import Verif.Props.TypedArguments
import Verif.Props.Unary
import Verif.Props.UnaryShape
import Verif.Props.Where
import Verif.Props.WhereShape
import Verif.Props.Whole
import Verif.Props.Workspace
import Verif.Spec.Advanced
import Verif.Spec.Archive
import Verif.Spec.Arr
import Verif.Spec.Blocks
import Verif.Spec.Claim
import Verif.Spec.Collection
import Verif.Spec.Combined
import Verif.Spec.Comparisons
import Verif.Spec.Diff
import Verif.Spec.Disjoint
import Verif.Spec.Drift
import Verif.Spec.DriftArrays
import Verif.Spec.Equality
import Verif.Spec.Expressions
import Verif.Spec.Fraction
import Verif.Spec.Generated
import Verif.Spec.Getitem
import Verif.Spec.Graph
import Verif.Spec.History
import Verif.Spec.IndexedCode
import Verif.Spec.Indexing
import Verif.Spec.Iteration
import Verif.Spec.Iterator
import Verif.Spec.Networkx
import Verif.Spec.Node
import Verif.Spec.Numbers
import Verif.Spec.NumpyConcatenate
import Verif.Spec.Oracle
import Verif.Spec.Permute
import Verif.Spec.Problems
import Verif.Spec.ProblemsCqm
import Verif.Spec.ProblemsDisjoint
import Verif.Spec.ProblemsFlow
import Verif.Spec.ProblemsRouting
import Verif.Spec.ProblemsWindows
import Verif.Spec.ProgramFile
import Verif.Spec.ProgramStates
import Verif.Spec.Programs
import Verif.Spec.PyStates
import Verif.Spec.Quadratic
import Verif.Spec.Range
import Verif.Spec.Res
import Verif.Spec.Rounding
import Verif.Spec.Sessions
import Verif.Spec.Shape
import Verif.Spec.Slice
import Verif.Spec.StateSize
import Verif.Spec.States
import Verif.Spec.Val
import Verif.Spec.Values
import Verif.Spec.Workspace
