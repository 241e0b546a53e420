import Verif.Common
import Verif.Endian.Model
import Verif.Endian.Lemmas
import Verif.Endian.Spec
import Verif.Endian.Props
import Verif.Msgb.Model
import Verif.Msgb.Spec
import Verif.Msgb.Lemmas
import Verif.Msgb.Props
import Verif.BitBuf
import Verif.Bits.Model
import Verif.Bits.Props
import Verif.Bitvec.Model
import Verif.Bitvec.Lemmas
import Verif.Bitvec.Props
import Verif.Utils.ArithModel
import Verif.Utils.ArithProps
import Verif.Utils.HexModel
import Verif.Utils.HexProps
import Verif.Utils.StrbufModel
import Verif.Utils.StrbufProps
import Verif.Utils.NumModel
import Verif.Utils.NumProps
import Verif.Utils.FloatProps
import Verif.Timer.Model
import Verif.Timer.Props
import Verif.UseCount.Model
import Verif.UseCount.Props
import Verif.Sercomm.Model
import Verif.Sercomm.Props
import Verif.Strrb.Model
import Verif.Strrb.Props
import Verif.Crc.Model
import Verif.Crc.GenProps
import Verif.Crc.PolyProps
import Verif.Tlv.Model
import Verif.Tlv.ParseProps
import Verif.Tlv.EncodeProps
import Verif.Tlv.MiscProps
import Verif.Gsm23003.Model
import Verif.Gsm23003.Props
import Verif.Gsm23003.NameProps
import Verif.GsmUtils.UssdProps
import Verif.GsmUtils.FrameProps
import Verif.GsmUtils.FreqProps
import Verif.GsmUtils.TlliProps
import Verif.GsmUtils.PowerProps

import Verif.Gsm0502.Props
import Verif.Conv.Model
import Verif.Conv.EncProps
import Verif.Conv.ViterbiProps
import Verif.Fsm.Model
import Verif.Fsm.Steps
import Verif.Fsm.Props
import Verif.Fsm.Once
import Verif.Fsm.Tree
import Verif.Fsm.Tree2
import Verif.Fsm.Main
import Verif.Base64.Model
import Verif.Base64.Props
import Verif.SoftUart.Model
import Verif.SoftUart.Rx
import Verif.SoftUart.Deliver
import Verif.SoftUart.Tx
import Verif.SoftUart.Overflow
import Verif.ArfcnRange.Model
import Verif.ArfcnRange.FindIndex
import Verif.ArfcnRange.Tree
import Verif.ArfcnRange.Enc
import Verif.ArfcnRange.Bits
import Verif.ArfcnRange.Read
import Verif.ArfcnRange.Main
import Verif.ArfcnRange.Safe
import Verif.IsdnHdlc.Model
import Verif.IsdnHdlc.Spec
import Verif.IsdnHdlc.Slow
import Verif.IsdnHdlc.Dec
import Verif.IsdnHdlc.Enc
import Verif.IsdnHdlc.EncProps
import Verif.IsdnHdlc.Main
import Verif.IsdnHdlc.Safe
import Verif.IsdnHdlc.Findings
import Verif.Queue.WriteQueue
import Verif.Queue.WriteProps
import Verif.Queue.ItQ
import Verif.Prbs.Props
import Verif.Prbs.Patterns
import Verif.RxlevStat.Props
import Verif.Tdef.Props
import Verif.TimeCc.Props
import Verif.Nri.Ranges
import Verif.Nri.Limit
import Verif.Apn.Props
import Verif.OsmoIo.Read
import Verif.OsmoIo.Write
import Verif.OsmoIo.Uring
import Verif.Ipa.Recv
import Verif.Ipa.Ccm
import Verif.Ipa.Resp
import Verif.Interleave.Model
import Verif.Interleave.Copy
import Verif.Interleave.Props
import Verif.Interleave.Mapping
import Verif.Interleave.Bursts
import Verif.I460.Model
import Verif.I460.Props
import Verif.Rlp.Model
import Verif.Rlp.Fcs
import Verif.Rlp.Bch
import Verif.Rlp.Props
import Verif.MobileId.Model
import Verif.MobileId.Spec
import Verif.MobileId.Decode
import Verif.MobileId.Encode
import Verif.MobileId.Props
import Verif.MobileId.Text
import Verif.MobileId.Legacy
import Verif.RaId.Model
import Verif.RaId.Props
import Verif.Classmark.Model
import Verif.Classmark.Props
import Verif.ConvAcc.Model
import Verif.ConvAcc.Trellis
import Verif.ConvAcc.Exec
import Verif.ConvAcc.Run
import Verif.ConvAcc.Props
import Verif.ConvAcc.Tail
import Verif.ConvAcc.Codes
import Verif.ConvAcc.Dist
import Verif.ConvAcc.Punct
import Verif.ConvAcc.Punctured
import Verif.Stats.Ident
import Verif.Stats.RateModel
import Verif.Stats.Rate
import Verif.Stats.Names
import Verif.Stats.Item
import Verif.Rbtree.Model
import Verif.Rbtree.Rep
import Verif.Rbtree.Rotate
import Verif.Rbtree.Insert
import Verif.Rbtree.Erase
import Verif.Rbtree.Unlink
import Verif.Rbtree.Ops
import Verif.Rbtree.Props
import Verif.Rbtree.Timers
import Verif.V110.Model
import Verif.V110.Props
import Verif.V110.Ra1
import Verif.Chan.Model
import Verif.Chan.Block
import Verif.Chan.Places
import Verif.Chan.Xcch
import Verif.Chan.Facch
import Verif.Chan.Std
import Verif.Chan.Burst
import Verif.Chan.Examples
import Verif.Tch.Model
import Verif.Tch.Frames
import Verif.Tch.Code
import Verif.Tch.Full
import Verif.Tch.Fs
import Verif.Tch.Efs
import Verif.Tch.Hs
import Verif.Tch.Half
import Verif.Tch.Std
import Verif.Tch.Examples
import Verif.Tdef.Model
import Verif.TimeCc.Model
import Verif.TimeCc.Runs
import Verif.Lapd.T203
import Verif.Ctrl.Words
import Verif.BssgpFc.Live
import Verif.Llist.Read
import Verif.Hlist.Hash
import Verif.Auth.Resync
import Verif.Auth.History
import Verif.Auth.TwoG
import Verif.Auth.Xor3g
import Verif.Auth.KeccakSpec
import Verif.Auth.TuakTrace
import Verif.Auth.Examples
import Verif.Bcd.Model
import Verif.Bcd.Props
import Verif.Gsup.Model
import Verif.Gsup.Loop
import Verif.Gsup.Spec
import Verif.Gsup.Fields
import Verif.Gsup.Groups
import Verif.Gsup.Stages
import Verif.Gsup.RoundTrip
import Verif.Gsup.Limits
import Verif.Gsup.Safety
import Verif.Gsup.Invariants
import Verif.Oap.Model
import Verif.Oap.Props
import Verif.Sms.Smc
import Verif.Sms.SmcProps
import Verif.Sms.SmcConn
import Verif.Sms.Smr
import Verif.Sms.SmrProps
import Verif.Sms.Utils
import Verif.Sms.UtilsProps
import Verif.Bitcomp.Model
import Verif.Bitcomp.Props
import Verif.Codec.SidProps
import Verif.Codec.EcuProps
import Verif.Logging.Props
import Verif.Logging.MaskProps
import Verif.Gad.Props
import Verif.Gad.PduProps
import Verif.Gcr.Props
import Verif.SpeechCodec.Props
import Verif.CellId.Props
import Verif.CellId.MatchProps
import Verif.CellId.AddProps
import Verif.ChanType.Props
import Verif.Tlv.SimpleProps
import Verif.Bsslap.Props
import Verif.Lcls.Props
import Verif.Exec.Props
import Verif.Signal.Props
import Verif.Ns.Props
import Verif.Vector.Props
import Verif.Strvec.Props
import Verif.RestOctets.Props
