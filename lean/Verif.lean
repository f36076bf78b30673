import Verif.Model.Basic
import Verif.Model.Utilities
import Verif.Model.Mpi
import Verif.Model.Points
import Verif.Model.IrrPoints
import Verif.Props.Utilities
import Verif.Props.Mpi
import Verif.Props.Points
import Verif.Props.IrrPoints
import Verif.Model.Matrix
import Verif.Model.Bands
import Verif.Props.Matrix
import Verif.Props.Bands
import Verif.Model.Particle
import Verif.Props.Particle
import Verif.Model.Window
import Verif.Props.Window
import Verif.Model.ActiveBuild
import Verif.Props.ActiveBuild
import Verif.Model.Delta
import Verif.Props.Delta
import Verif.Model.PhRates
import Verif.Props.PhRates
import Verif.Model.Sweep
import Verif.Props.Sweep
import Verif.Model.VectorBte
import Verif.Props.VectorBte
import Verif.Model.Pairs
import Verif.Props.Pairs
import Verif.Model.Degeneracy
import Verif.Props.Degeneracy
import Verif.Model.ScatMatrix
import Verif.Props.ScatMatrix
import Verif.Model.Input
import Verif.Props.Input
import Verif.Model.ThirdState
import Verif.Props.ThirdState
import Verif.Model.LinewidthSplit
import Verif.Props.LinewidthSplit
import Verif.Model.Device
import Verif.Spec.Device
import Verif.Props.Device
import Verif.Model.Epa
import Verif.Props.Epa
import Verif.Model.Crystal
import Verif.Props.Crystal
import Verif.Model.LoopPrint
import Verif.Props.LoopPrint
import Verif.Spec.Coupling3Ph
import Verif.Model.Coupling3Ph
import Verif.Props.Coupling3Ph
import Verif.Spec.Blocks
import Verif.Model.DegVelocity
import Verif.Props.DegVelocity
import Verif.Spec.SumRule
import Verif.Model.SumRule
import Verif.Props.SumRule
import Verif.Spec.Phonon
import Verif.Model.DynMat
import Verif.Props.DynMat
import Verif.Model.PhVelocity
import Verif.Props.PhVelocity
import Verif.Model.ElFourier
import Verif.Props.ElFourier
import Verif.Model.ElWannier
import Verif.Props.ElWannier
import Verif.Props.ElWannierDevice
import Verif.Spec.WannierFile
import Verif.Model.WannierFile
import Verif.Props.WannierFile
import Verif.Spec.Transport
import Verif.Model.Transport
import Verif.Props.Transport
import Verif.Props.Onsager
import Verif.Props.TransportOut
import Verif.Spec.Solvers
import Verif.Model.Solvers
import Verif.Props.Omini
import Verif.Props.Variational
import Verif.Props.Relaxons
import Verif.Spec.ElRates
import Verif.Model.ElRates
import Verif.Props.ElRates
import Verif.Model.SymScat
import Verif.Props.SymScat
import Verif.Model.PhEl
import Verif.Props.PhEl
import Verif.Spec.ElPhRead
import Verif.Model.ElPhRead
import Verif.Props.ElPhRead
import Verif.Spec.ElPhCoupling
import Verif.Model.ElPhCoupling
import Verif.Props.ElPhCoupling
import Verif.Props.ElPhPolar
import Verif.Spec.Wigner
import Verif.Model.Wigner
import Verif.Props.Wigner
import Verif.Spec.Viscosity
import Verif.Model.Viscosity
import Verif.Props.Viscosity
import Verif.Props.ViscosityRelaxons
import Verif.Spec.EpaRates
import Verif.Model.EpaRates
import Verif.Props.EpaRates
import Verif.Spec.Times
import Verif.Model.Times
import Verif.Props.Times
import Verif.Spec.Dos
import Verif.Model.Dos
import Verif.Props.Dos
import Verif.Model.Path
import Verif.Props.Path
import Verif.Spec.BlochWannier
import Verif.Model.BlochWannier
import Verif.Props.BlochWannier
import Verif.Spec.EpaAverage
import Verif.Model.EpaAverage
import Verif.Props.EpaAverage
import Verif.Spec.ElPhWrite
import Verif.Model.ElPhWrite
import Verif.Props.ElPhWrite
import Verif.Spec.Sheng
import Verif.Model.Sheng
import Verif.Props.Sheng
import Verif.Spec.Phono3py
import Verif.Model.Phono3py
import Verif.Props.Phono3py
import Verif.Spec.QeLattice
import Verif.Model.QeLattice
import Verif.Props.QeLattice
import Verif.Spec.QeForce
import Verif.Model.QeForce
import Verif.Props.QeForce
import Verif.Spec.XmlBands
import Verif.Model.XmlBands
import Verif.Props.XmlBands
import Verif.Spec.Phonopy
import Verif.Model.Phonopy
import Verif.Props.Phonopy
import Verif.Spec.ActiveStore
import Verif.Model.ActiveStore
import Verif.Props.ActiveStore
import Verif.Spec.MatrixCopy
import Verif.Model.MatrixCopy
import Verif.Props.MatrixCopy
import Verif.Spec.MatrixProd
import Verif.Model.MatrixProd
import Verif.Props.MatrixProd
import Verif.Spec.Atoms
import Verif.Model.Atoms
import Verif.Props.Atoms
import Verif.Spec.CrystalSym
import Verif.Model.CrystalSym
import Verif.Props.CrystalSym
import Verif.Spec.TimesFile
import Verif.Model.TimesFile
import Verif.Props.TimesFile
import Verif.Spec.TransportRun
import Verif.Model.TransportRun
import Verif.Props.TransportRun
import Verif.Spec.GroundState
import Verif.Model.GroundState
import Verif.Props.GroundState
import Verif.Spec.ElectronCount
import Verif.Model.ElectronCount
import Verif.Props.ElectronCount
import Verif.Spec.ElPhHeader
import Verif.Model.ElPhHeader
import Verif.Props.ElPhHeader
import Verif.Spec.FullStore
import Verif.Model.FullStore
import Verif.Props.FullStore
import Verif.Spec.ElHelper
import Verif.Model.ElHelper
import Verif.Props.ElHelper
import Verif.Spec.Occupations
import Verif.Model.Occupations
import Verif.Props.Occupations
import Verif.Spec.Isotope
import Verif.Model.Isotope
import Verif.Props.Isotope
import Verif.Spec.Collectives
import Verif.Model.Collectives
import Verif.Props.Collectives
import Verif.Spec.ElPhPlot
import Verif.Model.ElPhPlot
import Verif.Props.ElPhPlot
import Verif.Spec.PointSum
import Verif.Model.PointSum
import Verif.Props.PointSum
import Verif.Spec.Report
import Verif.Model.Report
import Verif.Props.Report
import Verif.Spec.Requirements
import Verif.Model.Requirements
import Verif.Props.Requirements
import Verif.Spec.ErrorStop
import Verif.Model.ErrorStop
import Verif.Props.ErrorStop
import Verif.Spec.RtaRun
import Verif.Model.RtaRun
import Verif.Props.RtaRun
import Verif.Spec.Summary
import Verif.Model.Summary
import Verif.Props.Summary
import Verif.Spec.BandsFile
import Verif.Model.BandsFile
import Verif.Props.BandsFile
import Verif.Spec.DosApp
import Verif.Model.DosApp
import Verif.Props.DosApp
import Verif.Spec.EpaApp
import Verif.Model.EpaApp
import Verif.Props.EpaApp
import Verif.Spec.ActiveRun
import Verif.Model.ActiveRun
import Verif.Props.ActiveRun
import Verif.Spec.PhElApp
import Verif.Model.PhElApp
import Verif.Props.PhElApp
import Verif.Spec.PathTimes
import Verif.Model.PathTimes
import Verif.Props.PathTimes
import Verif.Spec.PathPhTimes
import Verif.Model.PathPhTimes
import Verif.Props.PathPhTimes
import Verif.Model.VectorEpa
import Verif.Props.VectorEpa
import Verif.Model.Observable
import Verif.Props.Observable
import Verif.Spec.CouplingFile
import Verif.Model.CouplingFile
import Verif.Props.CouplingFile
import Verif.Spec.ParDiag
import Verif.Model.ParDiag
import Verif.Props.ParDiag
import Verif.Spec.RotationFile
import Verif.Model.RotationFile
import Verif.Props.RotationFile
import Verif.Model.ElPhMemory
import Verif.Props.ElPhMemory
import Verif.Spec.LatticeCell
import Verif.Props.CrystalClasses
import Verif.Spec.Conversion
import Verif.Model.Conversion
import Verif.Props.Conversion
import Verif.Spec.RunCoupling
import Verif.Model.RunCoupling
import Verif.Props.RunCoupling
import Verif.Spec.PhononRun
import Verif.Model.PhononRun
import Verif.Props.PhononRun
import Verif.Spec.ThirdOrder
import Verif.Props.ThirdOrder
import Verif.Spec.PathThird
import Verif.Model.PathThird
import Verif.Props.PathThird
import Verif.Spec.WannierRun
import Verif.Model.WannierRun
import Verif.Props.WannierRun
import Verif.Spec.WannierDos
import Verif.Model.WannierDos
import Verif.Props.WannierDos
import Verif.Spec.PhononDos
import Verif.Model.PhononDos
import Verif.Props.PhononDos
