import Verif.Model.Arith
import Verif.Model.CH2
import Verif.Model.CH3
import Verif.Model.CSR
import Verif.Model.Cmd
import Verif.Model.Controller
import Verif.Model.Coords
import Verif.Model.FileName
import Verif.Model.GaussSeidel
import Verif.Model.Grid2
import Verif.Model.Grid3
import Verif.Model.IEEE
import Verif.Model.InitCond
import Verif.Model.Int32
import Verif.Model.Jacobian
import Verif.Model.Logger
import Verif.Model.Loop
import Verif.Model.MGCH
import Verif.Model.MGPoisson
import Verif.Model.Machine
import Verif.Model.Main
import Verif.Model.Memory
import Verif.Model.Monitor
import Verif.Model.Multigrid
import Verif.Model.Observer
import Verif.Model.Options
import Verif.Model.Petsc
import Verif.Model.PetscSession
import Verif.Model.Poisson
import Verif.Model.Profiler
import Verif.Model.Prog
import Verif.Model.Program
import Verif.Model.RK
import Verif.Model.ReadArray
import Verif.Model.Reduce
import Verif.Model.Rounded
import Verif.Model.RoundedText
import Verif.Model.Settings
import Verif.Model.Text
import Verif.Model.TimeLoop
import Verif.Model.Transfer
import Verif.Model.VTK
import Verif.Spec.CHSol
import Verif.Spec.Energy
import Verif.Spec.Ext
import Verif.Spec.FAS
import Verif.Spec.Flow
import Verif.Spec.GaussSeidel
import Verif.Spec.Ieee
import Verif.Spec.Kahan
import Verif.Spec.Linear
import Verif.Spec.Logger
import Verif.Spec.MGRun
import Verif.Spec.Machine
import Verif.Spec.Main
import Verif.Spec.Matrix
import Verif.Spec.Measure
import Verif.Spec.Memory
import Verif.Spec.Multigrid
import Verif.Spec.NaN
import Verif.Spec.Ops2
import Verif.Spec.Ops3
import Verif.Spec.OptExit
import Verif.Spec.Options
import Verif.Spec.PoisFAS
import Verif.Spec.PoisOps
import Verif.Spec.PoisRun
import Verif.Spec.Poisson
import Verif.Spec.Poly
import Verif.Spec.Poly2
import Verif.Spec.Profiler
import Verif.Spec.Program
import Verif.Spec.RK
import Verif.Spec.Repro
import Verif.Spec.Round
import Verif.Spec.RoundCH
import Verif.Spec.RoundPois
import Verif.Spec.Run
import Verif.Spec.RunAny
import Verif.Spec.RunEach
import Verif.Spec.RunFl
import Verif.Spec.RunFl2
import Verif.Spec.Semi
import Verif.Spec.Settings
import Verif.Spec.Setup
import Verif.Spec.Sums
import Verif.Spec.Taylor
import Verif.Spec.Text
import Verif.Spec.Time
import Verif.Spec.Transfer
import Verif.Spec.VTK
import Verif.Proofs.Agree
import Verif.Proofs.Arrays
import Verif.Proofs.BC3
import Verif.Proofs.BlowUp
import Verif.Proofs.CH2
import Verif.Proofs.CH2A
import Verif.Proofs.CH3
import Verif.Proofs.CHConv
import Verif.Proofs.CHField
import Verif.Proofs.CHFull
import Verif.Proofs.CHGrid
import Verif.Proofs.CHLap
import Verif.Proofs.CHNoisy
import Verif.Proofs.CHStab
import Verif.Proofs.CHTime
import Verif.Proofs.CSR
import Verif.Proofs.Cells
import Verif.Proofs.Cmd
import Verif.Proofs.Coords
import Verif.Proofs.Energy
import Verif.Proofs.EnergyGrid
import Verif.Proofs.EnergyNoise
import Verif.Proofs.EnergyRound
import Verif.Proofs.FAS
import Verif.Proofs.FloatGrid
import Verif.Proofs.FloatNearest
import Verif.Proofs.GSAlg
import Verif.Proofs.GaussSeidel
import Verif.Proofs.General
import Verif.Proofs.Grid2
import Verif.Proofs.Grid3
import Verif.Proofs.IeeeCH
import Verif.Proofs.IeeeCH2
import Verif.Proofs.IeeeChain
import Verif.Proofs.IeeeChain2
import Verif.Proofs.IeeeConv
import Verif.Proofs.IeeeConv2
import Verif.Proofs.IeeeErr
import Verif.Proofs.IeeeErrCH
import Verif.Proofs.IeeeErrCH2
import Verif.Proofs.IeeeFl
import Verif.Proofs.IeeeKahan
import Verif.Proofs.IeeePid
import Verif.Proofs.IeeePois
import Verif.Proofs.IeeeRun
import Verif.Proofs.IeeeTimes
import Verif.Proofs.InitCond
import Verif.Proofs.Int32
import Verif.Proofs.Interior
import Verif.Proofs.JacLin
import Verif.Proofs.Jacobi
import Verif.Proofs.Jacobian
import Verif.Proofs.KahanFl
import Verif.Proofs.Kern3
import Verif.Proofs.KernA
import Verif.Proofs.LDU
import Verif.Proofs.Logger
import Verif.Proofs.Loop
import Verif.Proofs.MGCH
import Verif.Proofs.MGFixed
import Verif.Proofs.MGGen
import Verif.Proofs.MGMain
import Verif.Proofs.MGPoisson
import Verif.Proofs.MGProg
import Verif.Proofs.MGRun
import Verif.Proofs.MGStep
import Verif.Proofs.MGTotal
import Verif.Proofs.MMRun
import Verif.Proofs.Machine
import Verif.Proofs.Main
import Verif.Proofs.Memory
import Verif.Proofs.Multigrid
import Verif.Proofs.NaN
import Verif.Proofs.OptExit
import Verif.Proofs.Options
import Verif.Proofs.PoisConv
import Verif.Proofs.PoisCycle
import Verif.Proofs.PoisFAS
import Verif.Proofs.PoisLin
import Verif.Proofs.PoisMax
import Verif.Proofs.PoisRK
import Verif.Proofs.PoisTrunc
import Verif.Proofs.Poisson
import Verif.Proofs.Poly
import Verif.Proofs.Poly2
import Verif.Proofs.Profiler
import Verif.Proofs.Program
import Verif.Proofs.ProgramCH
import Verif.Proofs.ProgramInit
import Verif.Proofs.ProgramMain
import Verif.Proofs.ProgramPois
import Verif.Proofs.ProgramRK
import Verif.Proofs.ProgramRestart
import Verif.Proofs.ProgramRun
import Verif.Proofs.RK
import Verif.Proofs.RKCH
import Verif.Proofs.RKConv
import Verif.Proofs.RKEst
import Verif.Proofs.RKExist
import Verif.Proofs.RKField
import Verif.Proofs.RKOrder
import Verif.Proofs.Race
import Verif.Proofs.Reduce
import Verif.Proofs.Repro
import Verif.Proofs.ReproMain
import Verif.Proofs.Restart
import Verif.Proofs.ResumeAny
import Verif.Proofs.ResumeFl
import Verif.Proofs.Round
import Verif.Proofs.RoundCH
import Verif.Proofs.RoundCH2
import Verif.Proofs.RoundConv
import Verif.Proofs.RoundConv2
import Verif.Proofs.RoundGen
import Verif.Proofs.RoundMean2
import Verif.Proofs.RoundPois
import Verif.Proofs.RoundRK
import Verif.Proofs.RoundStep
import Verif.Proofs.RunAny
import Verif.Proofs.RunAny3
import Verif.Proofs.RunEach
import Verif.Proofs.RunEach2
import Verif.Proofs.RunEach3
import Verif.Proofs.RunEachPois
import Verif.Proofs.RunEachRK
import Verif.Proofs.RunSizes
import Verif.Proofs.Sched
import Verif.Proofs.Schedule
import Verif.Proofs.Settings
import Verif.Proofs.Single
import Verif.Proofs.Smooth
import Verif.Proofs.Sums
import Verif.Proofs.Symm
import Verif.Proofs.Taylor
import Verif.Proofs.Text
import Verif.Proofs.TimeLoop
import Verif.Proofs.Transfer
import Verif.Proofs.TransferSum
import Verif.Proofs.VCycle
import Verif.Proofs.VTK
import Verif.Props.Balance
import Verif.Props.BlowUp
import Verif.Props.CH
import Verif.Props.CSR
import Verif.Props.Consistency
import Verif.Props.Controller
import Verif.Props.Convergence
import Verif.Props.Coords
import Verif.Props.Energy
import Verif.Props.FAS
import Verif.Props.FileName
import Verif.Props.FloatTime
import Verif.Props.GaussSeidel
import Verif.Props.Grid
import Verif.Props.Grid2
import Verif.Props.Ieee
import Verif.Props.IeeeCH
import Verif.Props.IeeeCH2
import Verif.Props.IeeeEnergy
import Verif.Props.IeeeEnergyOde
import Verif.Props.IeeeInit
import Verif.Props.IeeeOde
import Verif.Props.IeeeOdeCH
import Verif.Props.InitCond
import Verif.Props.InitRound
import Verif.Props.Int32
import Verif.Props.Jacobian
import Verif.Props.Kernels
import Verif.Props.Logger
import Verif.Props.MGPoisson
import Verif.Props.Machine
import Verif.Props.Main
import Verif.Props.Memory
import Verif.Props.Multigrid
import Verif.Props.Observer
import Verif.Props.Options
import Verif.Props.Order
import Verif.Props.Petsc
import Verif.Props.Poisson
import Verif.Props.Poly
import Verif.Props.Profiler
import Verif.Props.Program
import Verif.Props.ProgramMG
import Verif.Props.ProgramMGRestart
import Verif.Props.ProgramPois
import Verif.Props.ProgramRestart
import Verif.Props.ProgramSetup
import Verif.Props.RK
import Verif.Props.ReadArray
import Verif.Props.ReadFile
import Verif.Props.Reduce
import Verif.Props.Repro
import Verif.Props.Restart
import Verif.Props.Resume
import Verif.Props.Round
import Verif.Props.Round2
import Verif.Props.RoundConv
import Verif.Props.RoundPois
import Verif.Props.RunEach
import Verif.Props.RunEach2
import Verif.Props.RunEachFile
import Verif.Props.RunEachPois
import Verif.Props.Settings
import Verif.Props.TimeLoop
import Verif.Props.Transfer
import Verif.Props.VTK
