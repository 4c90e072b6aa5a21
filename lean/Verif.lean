import Verif.Model.Py
import Verif.Model.Laws
import Verif.Spec.Laws
import Verif.Lemmas.Laws
import Verif.Props.LawsAgree
import Verif.Lemmas.LawsBounds
import Verif.Props.LawsBounds
import Verif.Props.LawsDeriv
import Verif.Model.MarinLaws
import Verif.Spec.Poly
import Verif.Props.MarinLaws
import Verif.Model.UserDefined
import Verif.Lemmas.Interp
import Verif.Props.UserDefined
import Verif.Model.MarinIntegration
import Verif.Spec.Area
import Verif.Lemmas.Area
import Verif.Lemmas.Triangle
import Verif.Lemmas.Convex
import Verif.Model.Rectangular
import Verif.Props.Area
import Verif.Model.Parallel
import Verif.Lemmas.Parallel
import Verif.Props.Parallel
import Verif.Model.Loop
import Verif.Lemmas.Loop
import Verif.Model.Material
import Verif.Props.Material
import Verif.Spec.Section
import Verif.Model.Fiber
import Verif.Props.Fiber
import Verif.Props.FiberMesh
import Verif.Model.MarinIntegrator
import Verif.Lemmas.Rotation
import Verif.Props.MarinBars
import Verif.Spec.Region
import Verif.Lemmas.Region
import Verif.Lemmas.MarinExact
import Verif.Props.MarinExact
import Verif.Props.MarinSurfaces
import Verif.Model.Balanced
import Verif.Props.Balanced
import Verif.Model.Equilibrium
import Verif.Lemmas.Equilibrium
import Verif.Props.Equilibrium
import Verif.Props.EquilibriumGeneric
import Verif.Model.Calculator
import Verif.Model.StrainProfile
import Verif.Props.StrainProfile
import Verif.Props.StrainProfileForces
import Verif.Lemmas.Calculator
import Verif.Props.Calculator
import Verif.Props.Strength
import Verif.Model.Domain
import Verif.Props.Domain
import Verif.Props.DomainOrder
import Verif.Props.Grid
import Verif.Model.Factories
import Verif.Props.Factories
import Verif.Model.Geometry
import Verif.Props.Geometry
import Verif.Model.Reinforcement
import Verif.Props.Reinforcement
import Verif.Model.Shapes
import Verif.Props.Shapes
import Verif.Model.Str
import Verif.Model.MC2010
import Verif.Model.EC2_2004
import Verif.Props.EC2_2004_Materials
import Verif.Lemmas.InterpMono
import Verif.Props.EC2_2004_Creep
import Verif.Props.EC2_2004_Shear
import Verif.Model.EC2_2004Crack
import Verif.Props.EC2_2004_Crack
import Verif.Model.Griddata
import Verif.Model.EC2_2023
import Verif.Props.EC2_2023
import Verif.Props.MC2010_Materials
import Verif.Model.MC2010Resist
import Verif.Props.MC2010_Shear
import Verif.Props.MC2010_Punching
import Verif.Model.Materials
import Verif.Props.Materials
import Verif.Props.Steels
import Verif.Props.BasicMaterials
import Verif.Model.Gross
import Verif.Spec.Gross
import Verif.Lemmas.RegionTranslate
import Verif.Props.Gross
import Verif.Props.GrossMore
import Verif.Model.Profile
import Verif.Spec.Profile
import Verif.Lemmas.Profile
import Verif.Props.Profile
import Verif.Props.ProfileReads
import Verif.Props.ProfileExample
import Verif.Model.ProfileTables
import Verif.Model.ProfileShapes
import Verif.Props.ProfileShapes
import Verif.Spec.ISection
import Verif.Lemmas.Plates
import Verif.Props.ISection
import Verif.Props.MaterialsMore
import Verif.Spec.Split
import Verif.Model.Cracked
import Verif.Props.Split
import Verif.Props.SplitMore
import Verif.Lemmas.Cracked
import Verif.Spec.Cracked
import Verif.Lemmas.CrackedBody
import Verif.Props.Cracked
import Verif.Props.CrackedMore
import Verif.Props.CrackedExample
import Verif.Model.Discretize
import Verif.Spec.Discretize
import Verif.Props.Discretize
import Verif.Props.DiscretizeSection
import Verif.Props.FiberError
import Verif.Props.FiberLaws
import Verif.Props.FiberExample
import Verif.Model.Triangulation
import Verif.Props.Triangulation
import Verif.Spec.Strength
import Verif.Props.RCStrength
import Verif.Props.RCConcrete
import Verif.Props.RCReturns
import Verif.Props.RCExample
import Verif.Props.DomainForces
import Verif.Props.DomainExample
import Verif.Props.TaperTables
import Verif.Props.RCCurvature
import Verif.Props.CurvatureExample
import Verif.Props.FiberStrength
import Verif.Props.FiberStrengthExample
import Verif.Props.FiberOrdinary
import Verif.Props.FiberDesign
import Verif.Props.FiberDesignExample
import Verif.Spec.Motion
import Verif.Props.Motion
import Verif.Props.MotionConcrete
import Verif.Props.MotionExample
import Verif.Props.OrdinaryRC
import Verif.Props.OrdinaryMaterials
import Verif.Props.OrdinaryExample
import Verif.Spec.Maximum
import Verif.Props.Maximum
import Verif.Props.MaximumResults
import Verif.Props.MaximumDomain
import Verif.Props.MaximumDesign
import Verif.Props.MaximumExample
import Verif.Spec.Plastic
import Verif.Props.Steel
import Verif.Props.SteelStrength
import Verif.Props.SteelResults
import Verif.Props.SteelProfile
import Verif.Props.SteelExample
import Verif.Props.Hardening
import Verif.Props.HardeningSearch
import Verif.Props.HardeningRC
import Verif.Props.HardeningStrength
import Verif.Props.HardeningGap
import Verif.Props.HardeningDesign
import Verif.Props.HardeningExample
import Verif.Props.StressBlock
import Verif.Props.RectBeam
import Verif.Props.RectDesign
import Verif.Props.RectExample
import Verif.Props.OrdinaryDrop
import Verif.Props.OrdinaryDropExample
import Verif.Props.OrdinaryDomain
import Verif.Props.OrdinaryDomain3D
import Verif.Props.OrdinaryDomainExample
import Verif.Props.DiagramChain
import Verif.Props.DiagramEnd
import Verif.Props.DiagramDesign
import Verif.Props.DiagramForces
import Verif.Props.DiagramSearch
import Verif.Props.DiagramExample
import Verif.Props.DiagramRupture
import Verif.Props.DiagramOrdinary
import Verif.Props.DiagramOrdinaryExample
import Verif.Props.Added
import Verif.Props.AddedDesign
import Verif.Props.AddedExample
import Verif.Props.LoadSlope
import Verif.Props.LoadDesign
import Verif.Props.Stronger
import Verif.Props.StrongerDesign
import Verif.Props.StrongerExample
import Verif.Model.Results
import Verif.Spec.Closeness
import Verif.Props.Results
import Verif.Spec.Design
import Verif.Props.PolyConcrete
import Verif.Props.OrdinarySolids
import Verif.Props.PolyStrength
import Verif.Props.PolyDesign
import Verif.Props.PolyExample
import Verif.Props.BilinearStrength
import Verif.Props.BilinearDesign
import Verif.Props.SofteningStrength
import Verif.Props.SarginStrength
import Verif.Props.PopovicsStrength
import Verif.Props.SarginDesign
import Verif.Props.SarginExample
import Verif.Props.CurvatureZero
import Verif.Props.AnyLawCurvature
import Verif.Props.DiagramLaws
import Verif.Props.DiagramLawsExample
import Verif.Props.DiscretizeTension
import Verif.Props.DomainLaws
import Verif.Props.DomainLawsDesign
import Verif.Props.DomainLawsExample
import Verif.Props.DomainLawsHigh
import Verif.Props.SarginCodes
import Verif.Props.SarginCodesExample
import Verif.Props.Prestress
import Verif.Props.PrestressLaws
import Verif.Props.PrestressExample
import Verif.Spec.Scale
import Verif.Props.Scaling
import Verif.Props.ScalingConcrete
import Verif.Props.ScalingGross
import Verif.Props.ScalingDesign
import Verif.Props.DomainTransport
import Verif.Props.DomainTransportExample
import Verif.Props.DomainTransport3D
import Verif.Props.DomainShiftExample
import Verif.Props.FiberDomain
import Verif.Props.FiberDomainExample
import Verif.Props.FiberCompare
import Verif.Props.FiberCompareDesign
import Verif.Props.FiberCompareExample
import Verif.Props.FiberMotion
import Verif.Props.FiberMotionDesign
import Verif.Props.FiberMotionDomain
import Verif.Props.FiberMotionDomainExample
import Verif.Props.FiberScaleDesign
import Verif.Props.FiberScaleExample
import Verif.Props.FiberMotionExample
