import Verif.Torch.Tensor
import Verif.Torch.Conv
import Verif.Spec.Wavelet
import Verif.Spec.Dwt
import Verif.Spec.Axes
import Verif.Lemmas.Filter
import Verif.Lemmas.Kernel
import Verif.Lemmas.Index
import Verif.Lemmas.Axes
import Verif.Lemmas.Tree
import Verif.Lemmas.Prepost
import Verif.Lemmas.Prepost2
import Verif.Model.Util
import Verif.Model.Pywt
import Verif.Model.Conv1
import Verif.Spec.Line
import Verif.Lemmas.Ext
import Verif.Lemmas.Pad
import Verif.Lemmas.FwtPad
import Verif.Lemmas.Conv1
import Verif.Lemmas.Line
import Verif.Lemmas.Top1
import Verif.Lemmas.Err1
import Verif.Spec.Lin
import Verif.Lemmas.Lin
import Verif.Lemmas.Rec1
import Verif.Lemmas.Char1
import Verif.Props.Conv1
import Verif.Props.Util
import Verif.Model.PacketOrder
import Verif.Props.PacketOrder
import Verif.Model.Packets
import Verif.Spec.Packets
import Verif.Spec.History
import Verif.Lemmas.Packets
import Verif.Lemmas.PacketsRec
import Verif.Lemmas.PacketsTop
import Verif.Model.Packet1
import Verif.Spec.Packet1
import Verif.Lemmas.Packet1
import Verif.Props.Packets
import Verif.Model.Conv2
import Verif.Model.Conv3
import Verif.Lemmas.Nd
import Verif.Lemmas.PadNd
import Verif.Spec.DwtNd
import Verif.Spec.Containers
import Verif.Lemmas.ConvNd
import Verif.Lemmas.Planes
import Verif.Lemmas.ErrNd
import Verif.Lemmas.LoopNd
import Verif.Lemmas.RecNd
import Verif.Lemmas.TopNd
import Verif.Props.ConvNd
import Verif.Model.SepConv
import Verif.Lemmas.SepDec
import Verif.Lemmas.SepTop
import Verif.Lemmas.SepRec
import Verif.Lemmas.SepIdwt
import Verif.Lemmas.SepLoop
import Verif.Lemmas.SepInv
import Verif.Lemmas.SepAlias
import Verif.Props.Sep
import Verif.Torch.Conv1g
import Verif.Spec.Swt
import Verif.Model.Swt
import Verif.Lemmas.CircPad
import Verif.Lemmas.Swt
import Verif.Lemmas.SwtTop
import Verif.Lemmas.SwtTotal
import Verif.Props.Swt
import Verif.Torch.Sparse
import Verif.Spec.Sparse
import Verif.Model.SparseMath
import Verif.Lemmas.Sparse
import Verif.Lemmas.ConvMat
import Verif.Lemmas.Kron
import Verif.Lemmas.SparseHelpers
import Verif.Lemmas.SparseRound
import Verif.Lemmas.Conv2dMat
import Verif.Lemmas.BatchMm
import Verif.Props.Sparse
import Verif.Model.Orth
import Verif.Spec.Orth
import Verif.Spec.OrthEdge
import Verif.Lemmas.OrthBank
import Verif.Lemmas.OrthMat
import Verif.Lemmas.OrthQr
import Verif.Lemmas.OrthTop
import Verif.Lemmas.OrthExist
import Verif.Lemmas.OrthEdge
import Verif.Props.Orth
import Verif.Model.Mat1
import Verif.Spec.Mat1
import Verif.Lemmas.Mat1
import Verif.Lemmas.Mat1Rec
import Verif.Lemmas.Mat1Top
import Verif.Lemmas.Mat1Build
import Verif.Lemmas.Mat1Op
import Verif.Props.Mat1
import Verif.Model.Alias
import Verif.Spec.Alias
import Verif.Props.Alias
import Verif.Model.Losses
import Verif.Spec.Losses
import Verif.Lemmas.Losses
import Verif.Lemmas.OrthPR
import Verif.Props.Losses
import Verif.Torch.Fft
import Verif.Model.Cwt
import Verif.Spec.Cwt
import Verif.Lemmas.Cwt
import Verif.Lemmas.CwtTop
import Verif.Props.Cwt
import Verif.Model.MatN
import Verif.Spec.MatN
import Verif.Lemmas.CoeffsN
import Verif.Lemmas.MatNFun
import Verif.Lemmas.MatNStep
import Verif.Lemmas.MatNDec
import Verif.Lemmas.MatNRec
import Verif.Lemmas.MatNBuild
import Verif.Lemmas.MatNTop
import Verif.Props.MatN
import Verif.Lemmas.MdAll
import Verif.Model.PacketMat
import Verif.Spec.PacketMat
import Verif.Lemmas.PacketMat
import Verif.Lemmas.PacketMatFun
import Verif.Props.PacketMat
import Verif.Model.Packet2
import Verif.Spec.Packet2
import Verif.Lemmas.Packet2
import Verif.Lemmas.Packet2Pad
import Verif.Props.Packet2
import Verif.Lemmas.PacketMat2
import Verif.Lemmas.PacketMat2Fun
import Verif.Props.PacketMat2
import Verif.Spec.MatNonsep
import Verif.Lemmas.Orth2
import Verif.Lemmas.Orth2Build
import Verif.Lemmas.MatNonsep
import Verif.Lemmas.MatNonsepTop
import Verif.Props.MatNonsep
import Verif.Lemmas.PacketMat2Nonsep
import Verif.Props.PacketMat2Nonsep
import Verif.Model.MatOp2
import Verif.Lemmas.MatOp2
import Verif.Lemmas.MatOp2Top
import Verif.Props.MatOp2
import Verif.Model.MatAlias
import Verif.Props.MatAlias
import Verif.Lemmas.TwoTap
import Verif.Props.Orientation
import Verif.Props.TwoTap
import Verif.Model.WaveletArg
import Verif.Props.WaveletArg
import Verif.Spec.LinN
import Verif.Spec.LinPacket
import Verif.Lemmas.LinN
import Verif.Lemmas.LinMat
import Verif.Lemmas.LinPacket
import Verif.Props.LinN
import Verif.Spec.Energy
import Verif.Lemmas.Energy
import Verif.Lemmas.EnergyPacket
import Verif.Lemmas.EnergySwt
import Verif.Props.Energy
import Verif.Model.Helpers
import Verif.Spec.Helpers
import Verif.Props.Helpers
import Verif.Model.CwtLearn
import Verif.Spec.CwtLearn
import Verif.Props.CwtLearn
import Verif.Spec.Local
import Verif.Lemmas.Local
import Verif.Lemmas.LocalPoly
import Verif.Props.Local
import Verif.Spec.LocalPoly
import Verif.Lemmas.LocalPolyN
import Verif.Props.LocalPolyN
import Verif.Spec.IdwtNd
import Verif.Lemmas.RecGenN
import Verif.Props.RecGenN
import Verif.Spec.Inner
import Verif.Lemmas.Adjoint
import Verif.Props.Adjoint
import Verif.Spec.IdwtSep
import Verif.Lemmas.RecGenSep
import Verif.Props.RecGenSep
import Verif.Spec.Slice
import Verif.Lemmas.Slice
import Verif.Props.Slice
import Verif.Props.SliceMat
import Verif.Lemmas.Cascade
import Verif.Props.Cascade
import Verif.Props.CascadePacket
import Verif.Spec.MatOnto
import Verif.Lemmas.MatOnto
import Verif.Props.MatOnto
import Verif.Spec.MatSyn
import Verif.Lemmas.MatSyn
import Verif.Lemmas.MatSynTop
import Verif.Lemmas.MatSynN
import Verif.Lemmas.MatSynSteps
import Verif.Lemmas.MatSynNTop
import Verif.Lemmas.MatSynSmall
import Verif.Props.MatSyn
import Verif.Spec.Kinds
import Verif.Lemmas.Kinds
import Verif.Props.Kinds
import Verif.Spec.AxisOrder
import Verif.Lemmas.AxisOrder
import Verif.Props.AxisOrder
import Verif.Spec.Rel
import Verif.Spec.Family
import Verif.Spec.FamilyPacket
import Verif.Lemmas.Rel
import Verif.Lemmas.RelN
import Verif.Lemmas.RelPacket
import Verif.Lemmas.RelLoss
import Verif.Lemmas.Family
import Verif.Lemmas.FamilyPacket
import Verif.Props.Numbers
import Verif.Props.Family
import Verif.Props.CwtShift
import Verif.Spec.Bounds
import Verif.Lemmas.Bounds
import Verif.Props.Bounds
import Verif.Model.PacketDict
import Verif.Spec.PacketDict
import Verif.Lemmas.PacketDict
import Verif.Props.PacketDict
import Verif.Spec.LeastSquares
import Verif.Lemmas.LeastSquares
import Verif.Lemmas.AdjointSwt
import Verif.Props.LeastSquares
import Verif.Spec.Sampled
import Verif.Lemmas.Sampled
import Verif.Props.Sampled
import Verif.Spec.Rounding
import Verif.Model.Rounded
import Verif.Lemmas.Rounding
import Verif.Lemmas.RoundingConv
import Verif.Lemmas.RoundingProg
import Verif.Props.Rounding
import Verif.Witness.Setup
import Verif.Witness.LeastSquares
import Verif.Witness.Rel
import Verif.Witness.Packet
import Verif.Witness.PacketMat
import Verif.Witness.Slice
import Verif.Witness.Conv
import Verif.Witness.Cwt
import Verif.Witness.Misc
import Verif.Witness.Misc2
import Verif.Witness.MiscMat
import Verif.Spec.RoundingN
import Verif.Model.RoundedN
import Verif.Lemmas.RoundingN
import Verif.Lemmas.RoundingNProg
import Verif.Props.RoundingN
import Verif.Spec.RoundingS
import Verif.Model.RoundedS
import Verif.Lemmas.RoundingS
import Verif.Props.RoundingS
import Verif.Props.RoundingDtype
import Verif.Model.WaveletLayer
import Verif.Spec.WaveletLayer
import Verif.Lemmas.WaveletLayer
import Verif.Props.WaveletLayer
import Verif.Witness.Rounding
import Verif.Spec.Bands
import Verif.Props.Bands
import Verif.Model.PacketPlot
import Verif.Props.PacketPlot
import Verif.Spec.ZeroMode
import Verif.Props.ZeroMode
import Verif.Spec.ZeroModeN
import Verif.Props.ZeroModeN
import Verif.Spec.Mirror
import Verif.Props.Mirror
import Verif.Spec.PacketZ
import Verif.Props.PacketZ
import Verif.Spec.MirrorRec
import Verif.Props.MirrorRec
import Verif.Spec.Scaled
import Verif.Props.Scaled
import Verif.Props.ScaledSwt
import Verif.Props.ScaledPacket
import Verif.Spec.Roll
import Verif.Props.Roll
import Verif.Props.RollPacket
import Verif.Spec.MatInner
import Verif.Lemmas.MatInner
import Verif.Props.MatInner
import Verif.Props.MatInnerPacket
import Verif.Props.RollLong
import Verif.Props.LocalPacket
import Verif.Props.PacketPoly
import Verif.Spec.MatLocal
import Verif.Lemmas.MatLocal
import Verif.Props.MatLocal
