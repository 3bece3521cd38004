import Verif.Model.Cell
import Verif.Model.Bin
import Verif.Model.Corr2
import Verif.Model.Tree
import Verif.Model.Sizes
import Verif.Model.Parallel
import Verif.Model.Trivial
import Verif.Spec.Pairs
import Verif.Spec.Tree
import Verif.Spec.Brute
import Verif.Spec.Counted
import Verif.Props.LogCounts
import Verif.Props.LinearCounts
import Verif.Props.Traversal
import Verif.Props.Tree
import Verif.Props.Trivial
import Verif.Model.Binning
import Verif.Props.Binning
import Verif.Props.Slop
import Verif.Spec.TwoD
import Verif.Props.TwoD
import Verif.Model.Patch
import Verif.Props.Patch
import Verif.Model.Cov
import Verif.Model.Xi
import Verif.Props.Cov
import Verif.Props.Xi
import Verif.Model.Finalize
import Verif.Props.Finalize
import Verif.Props.Swap
import Verif.Model.LRU
import Verif.Spec.LRU
import Verif.Props.LRU
import Verif.Model.Metric
import Verif.Spec.Metric
import Verif.Props.Metric
import Verif.Model.Config
import Verif.Spec.Config
import Verif.Props.Config
import Verif.Model.Rows
import Verif.Props.Rows
import Verif.Model.Catalog
import Verif.Model.CatalogOps
import Verif.Spec.Catalog
import Verif.Props.Catalog
import Verif.Props.CatalogCases
import Verif.Props.CatalogPatches
import Verif.Props.CatalogCombine
import Verif.Props.CatalogVar
import Verif.Model.Near
import Verif.Props.Near
import Verif.Props.KMeans
import Verif.Model.Sampler
import Verif.Props.Sampler
import Verif.Props.AngleSlop
import Verif.Model.Periodic
import Verif.Props.Periodic
import Verif.Model.Arc
import Verif.Props.Arc
import Verif.Model.Write
import Verif.Spec.Write
import Verif.Proofs.Write
import Verif.Proofs.WriteRead
import Verif.Props.Write
import Verif.Model.Spin
import Verif.Spec.Spin
import Verif.Spec.Sphere
import Verif.Proofs.Spin
import Verif.Proofs.SpinSphere
import Verif.Props.Spin
import Verif.Props.SpinSphere
import Verif.Props.Spin3
import Verif.Model.Corr3
import Verif.Spec.Triples
import Verif.Spec.Triangles
import Verif.Proofs.Traverse3
import Verif.Proofs.Ruv
import Verif.Proofs.RuvExact
import Verif.Proofs.Sums3
import Verif.Props.Corr3
import Verif.Proofs.SasExact
import Verif.Proofs.SasPlane
import Verif.Proofs.Witness3
import Verif.Props.Sas3
import Verif.Props.SasWrong
import Verif.Proofs.AtMost3
import Verif.Proofs.Slop3
import Verif.Props.Slop3
import Verif.Model.Multipole
import Verif.Model.Phase
import Verif.Spec.Multipole
import Verif.Proofs.MpPair
import Verif.Proofs.MpSharp
import Verif.Proofs.MpRun
import Verif.Proofs.MpSums
import Verif.Proofs.MpReps
import Verif.Proofs.MpTotals
import Verif.Proofs.MpTriples
import Verif.Proofs.MpFields
import Verif.Proofs.MpWitness
import Verif.Props.Multipole
import Verif.Props.MultipoleCases
import Verif.Spec.TriangleAngle
import Verif.Props.MultipoleAngle
import Verif.Model.Patch3
import Verif.Proofs.Patch3
import Verif.Proofs.Mpi3
import Verif.Proofs.PatchCount3
import Verif.Proofs.PatchTri
import Verif.Proofs.PatchHist3
import Verif.Props.Patch3
import Verif.Props.Patch3Cases
import Verif.Model.ArcPhi
import Verif.Props.ArcPhi
import Verif.Model.Binning3
import Verif.Props.Binning3
import Verif.Props.Tables3
import Verif.Model.Cov3
import Verif.Proofs.Cov3
import Verif.Props.Cov3
import Verif.Model.BruteMode
import Verif.Proofs.BruteMode
import Verif.Props.BruteMode
import Verif.Model.Zeta
import Verif.Props.Zeta
import Verif.Model.Local
import Verif.Proofs.Local
import Verif.Props.Local
import Verif.Model.Local3
import Verif.Proofs.Local3
import Verif.Proofs.Local3Mpi
import Verif.Props.Local3
import Verif.Props.Local3Cases
import Verif.Model.Finalize3
import Verif.Proofs.Finalize3
import Verif.Props.Finalize3
import Verif.Props.Finalize3Sphere
import Verif.Model.ToSas
import Verif.Spec.Dirichlet
import Verif.Proofs.ToSas
import Verif.Props.ToSas
import Verif.Props.ToSasCases
import Verif.Props.ToSasSides
import Verif.Model.Aperture
import Verif.Spec.Aperture
import Verif.Proofs.GaussMoments
import Verif.Proofs.Aperture
import Verif.Proofs.ApertureDual
import Verif.Proofs.ApertureEB
import Verif.Props.Aperture
import Verif.Props.ApertureCases
import Verif.Model.Map3
import Verif.Spec.Map3
import Verif.Proofs.Map3
import Verif.Proofs.Map3T
import Verif.Props.Map3
import Verif.Props.Map3Sums
import Verif.Props.Map3Cases
import Verif.Props.RuvLimits
import Verif.Model.MultipoleG
import Verif.Spec.MultipoleG
import Verif.Proofs.MpHom
import Verif.Proofs.MpShear
import Verif.Proofs.MpShearRuns
import Verif.Props.MultipoleG
import Verif.Props.MultipoleGCases
import Verif.Model.ToSasG
import Verif.Props.ToSasG
import Verif.Props.ToSasGCases
import Verif.Spec.KMeans
import Verif.Model.KMeansRun
import Verif.Props.KMeansRun
import Verif.Props.KMeansConv
import Verif.Props.KMeansCases
import Verif.Props.KMeansAlt
import Verif.Props.SelfPairs
import Verif.Props.KMeansInit
import Verif.Props.Parallel3
import Verif.Props.LocalMp
import Verif.Props.ToSasPatch
import Verif.Props.ToSasGPatch
import Verif.Props.MpSlop
import Verif.Spec.Slop
import Verif.Spec.MpSlop
import Verif.Proofs.MpSlop
import Verif.Proofs.MpSlopSums
import Verif.Proofs.MpNested
import Verif.Proofs.MpClear
import Verif.Spec.MpSlopG
import Verif.Proofs.MpSlopG
import Verif.Props.MpSlopG
import Verif.Model.ReadCols
import Verif.Spec.ReadCols
import Verif.Proofs.ReadCols
import Verif.Props.ReadCols
import Verif.Model.Exec
import Verif.Spec.Exec
import Verif.Proofs.Exec
import Verif.Props.Exec
import Verif.Model.Saved
import Verif.Spec.Saved
import Verif.Proofs.Saved
import Verif.Props.Saved
import Verif.Model.NearArgs
import Verif.Spec.NearArgs
import Verif.Proofs.NearArgs
import Verif.Props.NearArgs
import Verif.Model.CatState
import Verif.Spec.CatState
import Verif.Proofs.CatState
import Verif.Props.CatState
import Verif.Model.Write3
import Verif.Spec.Write3
import Verif.Proofs.Write3
import Verif.Proofs.Write3Read
import Verif.Props.Write3
import Verif.Model.Copies
import Verif.Spec.Copies
import Verif.Proofs.Copies
import Verif.Props.Copies
import Verif.Model.Repr
import Verif.Spec.Repr
import Verif.Proofs.Repr
import Verif.Props.Repr
import Verif.Model.ConfigFile
import Verif.Spec.ConfigFile
import Verif.Proofs.ConfigFile
import Verif.Props.ConfigFile
import Verif.Model.Ascii
import Verif.Spec.Ascii
import Verif.Proofs.Ascii
import Verif.Props.Ascii
import Verif.Model.FileType
import Verif.Spec.FileType
import Verif.Proofs.FileType
import Verif.Props.FileType
import Verif.Model.GivenVar
import Verif.Proofs.GivenVar
import Verif.Props.GivenVar
import Verif.Model.Adding
import Verif.Spec.Adding
import Verif.Proofs.Adding
import Verif.Props.Adding
import Verif.Model.Adding3
import Verif.Spec.Adding3
import Verif.Proofs.Adding3
import Verif.Props.Adding3
import Verif.Model.FileNames
import Verif.Spec.FileNames
import Verif.Proofs.FileNames
import Verif.Props.FileNames
import Verif.Model.CorrEq
import Verif.Spec.CorrEq
import Verif.Props.CorrEq
