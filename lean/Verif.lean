import Verif.Prop.Packing
import Verif.Prop.Utils
import Verif.Prop.Hilbert
import Verif.Prop.Sfc
import Verif.Prop.Arena
import Verif.Prop.Cbmb
import Verif.Prop.Comm
import Verif.Prop.Wildcard
import Verif.Prop.Nonblocking
import Verif.Prop.Balance
import Verif.Prop.Parser
import Verif.Prop.Strings
import Verif.Prop.CsxConvert
import Verif.Prop.CsxGemv
import Verif.Prop.CsxPrune
import Verif.Prop.CsxSub
import Verif.Prop.CsxPerm
import Verif.Prop.CsxComplete
import Verif.Model.Serialized
import Verif.Spec.Serialized
import Verif.Proof.Serialized
import Verif.Proof.SerialItems
import Verif.Proof.SerialPermute
import Verif.Prop.Serialized
import Verif.Prop.SerialPermute
import Verif.Prop.SerialIter
import Verif.Model.TArray
import Verif.Prop.TArray
import Verif.Model.Gluing
import Verif.Proof.Gluing
import Verif.Prop.Gluing
import Verif.Model.Pattern
import Verif.Proof.Pattern
import Verif.Proof.PatternBuild
import Verif.Proof.PatternFill
import Verif.Proof.PatternDecomposition
import Verif.Prop.Pattern
import Verif.Prop.PatternDomain
import Verif.Spec.KdTree
import Verif.Model.KdTree
import Verif.Proof.KdTree
import Verif.Proof.KdTreeBuild
import Verif.Proof.KdTreeNode
import Verif.Prop.KdTree
import Verif.Model.DuplicateNodes
import Verif.Proof.DuplicateNodes
import Verif.Proof.DuplicateSweep
import Verif.Proof.DuplicateSearch
import Verif.Prop.DuplicateNodes
import Verif.Model.DualMap
import Verif.Spec.Dual
import Verif.Proof.DualMap
import Verif.Proof.DualSync
import Verif.Prop.DualMap
import Verif.Model.Constraints
import Verif.Spec.Constraints
import Verif.Proof.Constraints
import Verif.Proof.ConstraintsOrder
import Verif.Proof.ConstraintsLoop
import Verif.Proof.ConstraintsSet
import Verif.Proof.ConstraintsGlobal
import Verif.Prop.Constraints
import Verif.Spec.Xml
import Verif.Model.Xml
import Verif.Proof.Xml
import Verif.Prop.Xml
import Verif.Spec.Tokenizer
import Verif.Model.Tokenizer
import Verif.Proof.Tokenizer
import Verif.Prop.Tokenizer
import Verif.Prop.Config
import Verif.Prop.Flags
import Verif.Prop.Pcpg
import Verif.Prop.DualOperator
import Verif.Model.Projector
import Verif.Proof.MpiSeq
import Verif.Proof.Projector
import Verif.Prop.Projector
import Verif.Model.CoarseSpace
import Verif.Spec.Coarse
import Verif.Proof.OMap
import Verif.Proof.DualGraph
import Verif.Proof.CoarseSpace
import Verif.Proof.CoarseProduct
import Verif.Prop.CoarseGraph
import Verif.Prop.CoarseSpace
import Verif.Prop.CoarseProduct
import Verif.Spec.FetiSolution
import Verif.Model.FetiSolve
import Verif.Proof.FetiSolve
import Verif.Prop.FetiSolution
import Verif.Prop.FetiSolve
import Verif.Prop.FetiSolveExample
import Verif.Model.OrthoPcpg
import Verif.Proof.OrthoPcpg
import Verif.Proof.OrthoStop
import Verif.Proof.OrthoRun
import Verif.Prop.OrthoPcpg
import Verif.Prop.OrthoRun
import Verif.Prop.OrthoRunExample
import Verif.Spec.BoxQP
import Verif.Model.Mprgp
import Verif.Proof.Mprgp
import Verif.Proof.MprgpRun
import Verif.Prop.Mprgp
import Verif.Prop.MprgpExample
import Verif.Model.Smalbe
import Verif.Proof.Smalbe
import Verif.Prop.Smalbe
import Verif.Prop.SmalbeExample
import Verif.Model.BaseFunctions
import Verif.Spec.ShapeFunctions
import Verif.Proof.BaseFunctions
import Verif.Proof.BasisFamily
import Verif.Prop.BaseFunctions
import Verif.Model.Integration
import Verif.Proof.Integration
import Verif.Prop.Integration
import Verif.Model.Quadrature
import Verif.Spec.Quadrature
import Verif.Proof.Quadrature
import Verif.Proof.QuadratureRules
import Verif.Proof.QuadratureTables
import Verif.Prop.Quadrature
import Verif.Proof.PolyDegree
import Verif.Model.ElementLoop
import Verif.Proof.ElementVolume
import Verif.Prop.ElementVolume
import Verif.Model.Chunks
import Verif.Prop.Chunks
import Verif.Model.Conductivity
import Verif.Spec.Conductivity
import Verif.Proof.AddTo
import Verif.Proof.Conductivity
import Verif.Prop.Conductivity
import Verif.Prop.ConductionForm
import Verif.Proof.ConductionKernel
import Verif.Proof.ConductionExplicit
import Verif.Prop.ConductionKernel
import Verif.Prop.HeatMesh
import Verif.Prop.HeatExample
import Verif.Model.Elasticity
import Verif.Spec.Elasticity
import Verif.Proof.Elasticity
import Verif.Proof.ElasticLaw
import Verif.Proof.ElasticPoint
import Verif.Proof.ElasticLarge
import Verif.Prop.Elasticity
import Verif.Prop.ElasticForm
import Verif.Prop.ElasticKernel
import Verif.Prop.ElasticAxi
import Verif.Prop.ElasticLarge
import Verif.Prop.ElasticEnergy
import Verif.Prop.ElasticThickness
import Verif.Prop.ElasticMesh
import Verif.Model.Loads
import Verif.Spec.Loads
import Verif.Proof.Loads
import Verif.Prop.Loads
import Verif.Prop.BodyLoads
import Verif.Proof.MassExplicit
import Verif.Proof.MassKernel
import Verif.Prop.Mass
import Verif.Prop.Pressure
import Verif.Prop.ClosedPressure
import Verif.Model.NeoHookean
import Verif.Spec.NeoHookean
import Verif.Prop.NeoHookean
import Verif.Model.BonetWood
import Verif.Prop.BonetWood
import Verif.Model.Regularization
import Verif.Spec.Regularization
import Verif.Proof.Regularization
import Verif.Proof.RegularizationAlgebra
import Verif.Proof.RegularizationMatrix
import Verif.Prop.Regularization
import Verif.Prop.ElasticRegularization
import Verif.Model.Transient
import Verif.Model.Newton
import Verif.Spec.Transient
import Verif.Proof.Transient
import Verif.Prop.TransientHeat
import Verif.Prop.TransientNewmark
import Verif.Prop.TransientNonlinear
import Verif.Prop.Newton
import Verif.Prop.Harmonic
import Verif.Prop.Direct
import Verif.Model.DirectPattern
import Verif.Proof.DirectPattern
import Verif.Prop.DirectPattern
import Verif.Model.ElementResults
import Verif.Prop.ElementResults
import Verif.Model.Advection
import Verif.Prop.Advection
import Verif.Model.Stress
import Verif.Prop.Stress
import Verif.Model.NodeSync
import Verif.Prop.NodeSync
import Verif.Model.Statistics
import Verif.Prop.Statistics
