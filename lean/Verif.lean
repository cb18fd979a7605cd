import Verif.Core.Effect
import Verif.Core.Sim
import Verif.Model.Ahyp
import Verif.Model.Arith
import Verif.Model.Arith2
import Verif.Model.Base
import Verif.Model.Catch
import Verif.Model.Checking
import Verif.Model.Client
import Verif.Model.Compare
import Verif.Model.Constants
import Verif.Model.Conv
import Verif.Model.Det
import Verif.Model.DocSign
import Verif.Model.Exact
import Verif.Model.Examples
import Verif.Model.Expr
import Verif.Model.Float
import Verif.Model.Handler
import Verif.Model.HwRounding
import Verif.Model.Idle
import Verif.Model.Io
import Verif.Model.IoEx
import Verif.Model.MachInt
import Verif.Model.Mpfr
import Verif.Model.Object
import Verif.Model.Overflow
import Verif.Model.Platform
import Verif.Model.PolicyTypes
import Verif.Model.Program
import Verif.Model.Register
import Verif.Model.RndProg
import Verif.Model.Rounding
import Verif.Model.StdFn
import Verif.Model.ToInt
import Verif.Model.Transc
import Verif.Model.Utility
import Verif.Proofs.Bridge
import Verif.Proofs.Catch
import Verif.Proofs.ClientSim
import Verif.Proofs.Compare
import Verif.Proofs.Conv
import Verif.Proofs.Converge
import Verif.Proofs.Cut
import Verif.Proofs.CutFns
import Verif.Proofs.CutProg
import Verif.Proofs.DocSign
import Verif.Proofs.Elem
import Verif.Proofs.Empty
import Verif.Proofs.EnclArith
import Verif.Proofs.EnclArith2
import Verif.Proofs.EnclDiv
import Verif.Proofs.EnclPow
import Verif.Proofs.EnclUtil
import Verif.Proofs.EnvLaws
import Verif.Proofs.Erase
import Verif.Proofs.ExFilter1
import Verif.Proofs.ExFilter2
import Verif.Proofs.ExFilter2Exact
import Verif.Proofs.ExLoop
import Verif.Proofs.ExNewton
import Verif.Proofs.ExTerm
import Verif.Proofs.ExTri
import Verif.Proofs.ExZeros
import Verif.Proofs.ExactFl
import Verif.Proofs.Expr
import Verif.Proofs.Ext
import Verif.Proofs.FloatLaws
import Verif.Proofs.HwRounding
import Verif.Proofs.Idle
import Verif.Proofs.InstArith2
import Verif.Proofs.InstElem
import Verif.Proofs.InstRoot
import Verif.Proofs.Instances
import Verif.Proofs.Isotone
import Verif.Proofs.IsotoneNoInf
import Verif.Proofs.Last
import Verif.Proofs.Laws
import Verif.Proofs.Median
import Verif.Proofs.Nearest
import Verif.Proofs.NoInf
import Verif.Proofs.Numbers
import Verif.Proofs.OppStd
import Verif.Proofs.Outcome
import Verif.Proofs.PlatformLaws
import Verif.Proofs.PolSim
import Verif.Proofs.PolicyChange
import Verif.Proofs.PolicyNoInf
import Verif.Proofs.PolicyTypes
import Verif.Proofs.PowAcc
import Verif.Proofs.PowMono
import Verif.Proofs.Program
import Verif.Proofs.Raise
import Verif.Proofs.Refine
import Verif.Proofs.RefineFate
import Verif.Proofs.RefineNoInf
import Verif.Proofs.Register
import Verif.Proofs.RndProg
import Verif.Proofs.Root
import Verif.Proofs.RootBig
import Verif.Proofs.RootMath
import Verif.Proofs.RootOrder
import Verif.Proofs.RootRat
import Verif.Proofs.SimFns
import Verif.Proofs.SingleUse
import Verif.Proofs.Store
import Verif.Proofs.Switches
import Verif.Proofs.Trig
import Verif.Proofs.Twin
import Verif.Proofs.TwinFate
import Verif.Props.Accuracy
import Verif.Props.AccuracyNeg
import Verif.Props.Ahyp
import Verif.Props.Algebra
import Verif.Props.Arith
import Verif.Props.Arith2
import Verif.Props.Backends
import Verif.Props.Catch
import Verif.Props.Compare
import Verif.Props.CompareAlg
import Verif.Props.Constants
import Verif.Props.Converge
import Verif.Props.Ctor
import Verif.Props.Det
import Verif.Props.DetValue
import Verif.Props.Difference
import Verif.Props.DocSign
import Verif.Props.Elem
import Verif.Props.Empty
import Verif.Props.ExactFloat
import Verif.Props.ExampleDemo
import Verif.Props.ExampleEnds
import Verif.Props.ExampleRoots
import Verif.Props.Examples
import Verif.Props.Expr
import Verif.Props.Handler
import Verif.Props.HwRounding
import Verif.Props.Idle
import Verif.Props.Invalid
import Verif.Props.Inverse
import Verif.Props.Io
import Verif.Props.IoEx
import Verif.Props.IoStyle
import Verif.Props.Isotone
import Verif.Props.Limits
import Verif.Props.MachInt
import Verif.Props.Mode
import Verif.Props.Mpfr
import Verif.Props.NoEmpty
import Verif.Props.NoInf
import Verif.Props.Numbers
import Verif.Props.Object
import Verif.Props.Overflow
import Verif.Props.Plain
import Verif.Props.Platform
import Verif.Props.PolicyChange
import Verif.Props.PolicyTypes
import Verif.Props.Program
import Verif.Props.Raise
import Verif.Props.Refine
import Verif.Props.Register
import Verif.Props.RndObject
import Verif.Props.Root
import Verif.Props.RootOrder
import Verif.Props.RootPow
import Verif.Props.Sharp
import Verif.Props.SingleUse
import Verif.Props.StdFn
import Verif.Props.Store
import Verif.Props.Switches
import Verif.Props.ToInt
import Verif.Props.Trig
import Verif.Props.TrigDepth
import Verif.Props.TrigIso
import Verif.Props.Twin
import Verif.Props.Utility
import Verif.Props.Width
import Verif.Spec.Accuracy
import Verif.Spec.Ahyp
import Verif.Spec.Catch
import Verif.Spec.Client
import Verif.Spec.Compare
import Verif.Spec.Control
import Verif.Spec.Conv
import Verif.Spec.Converge
import Verif.Spec.Elem
import Verif.Spec.Env
import Verif.Spec.Examples
import Verif.Spec.Expr
import Verif.Spec.Handler
import Verif.Spec.HwRounding
import Verif.Spec.Idle
import Verif.Spec.Numbers
import Verif.Spec.Object
import Verif.Spec.Plain
import Verif.Spec.PolicyTypes
import Verif.Spec.Program
import Verif.Spec.Raise
import Verif.Spec.Read
import Verif.Spec.Recheck
import Verif.Spec.Refine
import Verif.Spec.Register
import Verif.Spec.RndProg
import Verif.Spec.Root
import Verif.Spec.Sem
import Verif.Spec.SingleUse
import Verif.Spec.Switches
import Verif.Spec.Twin
import Verif.Suite.Add
import Verif.Suite.Arith
import Verif.Suite.Compare
import Verif.Suite.Hardware
