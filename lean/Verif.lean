import Verif.Base.Cfg
import Verif.Base.M
import Verif.Model.Limb
import Verif.Model.Usize
import Verif.Proofs.Limb
import Verif.Proofs.LimbBits
import Verif.Proofs.LDiv
import Verif.Proofs.NonCtLDiv
import Verif.Proofs.Usize
import Verif.Model.Buf
import Verif.Model.Value
import Verif.Proofs.Digits
import Verif.Proofs.BufList
import Verif.Proofs.Buf
import Verif.Proofs.Upto
import Verif.Proofs.BufOps
import Verif.Proofs.BufBits
import Verif.Proofs.BufCopy
import Verif.Props.Buf
import Verif.Props.Limb
import Verif.Model.Cmp
import Verif.Model.Add
import Verif.Proofs.Cmp
import Verif.Proofs.Low
import Verif.Proofs.Add
import Verif.Proofs.AddMod
import Verif.Props.Add
import Verif.Model.Shift
import Verif.Proofs.Shift
import Verif.Props.Shift
import Verif.Model.Mul
import Verif.Proofs.Mul
import Verif.Proofs.Square
import Verif.Props.Mul
import Verif.Model.Composite
import Verif.Proofs.Composite
import Verif.Props.Composite
import Verif.Base.LoopE
import Verif.Model.Div
import Verif.Proofs.Knuth
import Verif.Proofs.Divisor
import Verif.Proofs.DivisorNew
import Verif.Proofs.DivCommon
import Verif.Proofs.DivMp
import Verif.Proofs.DivL
import Verif.Proofs.DivPow2
import Verif.Proofs.DivLshifted
import Verif.Props.Div
import Verif.Model.Montgomery
import Verif.Proofs.RedcKernel
import Verif.Proofs.Redc
import Verif.Proofs.Montgomery
import Verif.Proofs.MgExp
import Verif.Proofs.Divstep
import Verif.Model.Euclid
import Verif.Proofs.EuclidBatch
import Verif.Props.Montgomery
import Verif.Proofs.EuclidApply
import Verif.Proofs.Gcd
import Verif.Props.Euclid
import Verif.Model.InvModOdd
import Verif.Proofs.InvModOdd
import Verif.Proofs.InvModFinish
import Verif.Proofs.InvModApply
import Verif.Proofs.InvModOddMp
import Verif.Props.InvMod
import Verif.Model.InvMod
import Verif.Proofs.InvPow2
import Verif.Proofs.InvMod
import Verif.Props.InvAny
import Verif.Props.InvAnyRelease
import Verif.Model.Lcm
import Verif.Proofs.Lcm
import Verif.Props.Lcm
import Verif.Props.LcmRelease
import Verif.Model.Prime
import Verif.Proofs.SmallFactor
import Verif.Proofs.MillerRabin
import Verif.Proofs.StrongPrime
import Verif.Props.Prime
import Verif.Props.MgExact
import Verif.Model.Wheel
import Verif.Proofs.Wheel
import Verif.Props.Wheel
import Verif.Model.Hex
import Verif.Proofs.Hex
import Verif.Props.Hex
import Verif.Base.SameTr
import Verif.Base.Pub
import Verif.Base.CtTactic
import Verif.Proofs.CtBuf
import Verif.Proofs.CtArith
import Verif.Proofs.CtDiv
import Verif.Proofs.CtDivisor
import Verif.Proofs.CtMontgomery
import Verif.Proofs.CtEuclid
import Verif.Proofs.CtInvModOdd
import Verif.Proofs.CtInvMod
import Verif.Proofs.CtLcm
import Verif.Proofs.CtPrime
import Verif.Proofs.CtWheel
import Verif.Props.CtTrace
import Verif.Proofs.BufCondLen
import Verif.Props.NoPanic
import Verif.Props.Frame
import Verif.Model.X86
import Verif.Props.X86
import Verif.Model.View
import Verif.Props.View
import Verif.Proofs.Rabin
import Verif.Props.PrimeBound
import Verif.Proofs.Rsa
import Verif.Props.Protocol
import Verif.Props.Release
import Verif.Props.RoundTrip
import Verif.Props.Portable
import Verif.Props.Contents
import Verif.Props.Usize
import Verif.Props.Programs
import Verif.Props.ModPrograms
import Verif.Props.PrimeSearch
import Verif.Props.Crt
import Verif.Model.HexWriter
import Verif.Props.HexWriter
import Verif.Model.Zeroize
import Verif.Props.Choice
import Verif.Props.Numeral
import Verif.Proofs.SquareRelease
import Verif.Proofs.LcmRelease
import Verif.Proofs.InvModRelease
import Verif.Proofs.InvPow2Release
import Verif.Props.SquareRelease
import Verif.Proofs.DivRelease
import Verif.Props.DivRelease
import Verif.Proofs.MgRelease
import Verif.Props.MgRelease
import Verif.Props.AddModRelease
import Verif.Props.AddWide
import Verif.Props.CopyRelease
import Verif.Props.MulRelease
import Verif.Props.CompositeRelease
import Verif.Proofs.CtWheelRun
import Verif.Props.CtWheel
import Verif.Props.Dsa
import Verif.Proofs.Pocklington
import Verif.Props.ProvablePrime
import Verif.Props.Field
import Verif.Props.Elliptic
import Verif.Props.Ecdsa
import Verif.Props.Shamir
import Verif.Props.SquareRoot
import Verif.Props.RootAny
import Verif.Props.BatchInverse
import Verif.Props.Garner
import Verif.Props.Padded
import Verif.Props.SearchEnds
import Verif.Props.SearchCost
import Verif.Props.RsaKey
import Verif.Props.Total
import Verif.Props.Group
import Verif.Props.Blind
import Verif.Props.Paillier
import Verif.Model.ShiftUsize
import Verif.Proofs.ShiftUsize
import Verif.Props.ShiftUsize
import Verif.Base.Cost
import Verif.Proofs.CostBuf
import Verif.Proofs.CostArith
import Verif.Proofs.CostDiv
import Verif.Proofs.CostMontgomery
import Verif.Proofs.CostEuclid
import Verif.Proofs.CostInvMod
import Verif.Proofs.CostPrime
import Verif.Props.Cost
import Verif.Props.HexCost
import Verif.Model.LongUsize
import Verif.Proofs.LongUsize
import Verif.Proofs.LongUsizeFails
import Verif.Props.LongUsize
import Verif.Proofs.WheelGap
import Verif.Props.WheelGap
