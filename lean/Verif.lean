import Verif.C
import Verif.Queue.Props
import Verif.Queue.Concurrent
import Verif.BitOps.Props
import Verif.Crc.Props
import Verif.Bitstream.Props
import Verif.Async.Props
import Verif.Hdlc.Props
import Verif.G711.Props
import Verif.Saturated.Props
import Verif.Schedule.Props
import Verif.Ima.Props
import Verif.Oki.Props
import Verif.Playout.Props
import Verif.Scrambler.Props
import Verif.Bert.Rate
import Verif.Bert.Period
import Verif.Silence.Props
import Verif.Gsm.Props
import Verif.NonEcm.Tcf
import Verif.Qm.Model
import Verif.Qm.Spec
import Verif.Qm.Basic
import Verif.Qm.Enc
import Verif.Qm.Flush
import Verif.Qm.Dec
import Verif.Qm.Safe
import Verif.Qm.Session
import Verif.Qm.Props
import Verif.V42bis.Model
import Verif.V42bis.Dict
import Verif.V42bis.Kernel
import Verif.V42bis.Wire
import Verif.V42bis.Send
import Verif.V42bis.Sync
import Verif.V42bis.Loop
import Verif.V42bis.Session
import Verif.V42bis.Safe
import Verif.V42bis.Spec
import Verif.V42bis.Props
import Verif.T4.Tables
import Verif.T4.Model
import Verif.T4.Bits
import Verif.T4.Runs
import Verif.T4.Codes
import Verif.T4.Span
import Verif.T4.Machine
import Verif.T4.Feed
import Verif.T4.Consume
import Verif.T4.Pack
import Verif.T4.Row
import Verif.T4.Ref
import Verif.T4.Row2d
import Verif.T4.Loop2d
import Verif.T4.Enc2d
import Verif.T4.Page
import Verif.T4.Stream
import Verif.T4.Read
import Verif.T4.Props
import Verif.T38.Model
import Verif.T38.Spec
import Verif.T38.Lemmas
import Verif.T38.Round
import Verif.T38.Packet
import Verif.T38.History
import Verif.T38.Props
import Verif.V42.Props
import Verif.Qm.Stream
import Verif.T85.Feed
import Verif.T85.Enc
import Verif.T85.Model
import Verif.T85.Row
import Verif.T85.Frame
import Verif.T85.Spec
import Verif.T85.Final
import Verif.T85.Safe
import Verif.T85.Header
import Verif.T85.Pages
import Verif.T85.Props
import Verif.Ecm.Model
import Verif.Ecm.Spec
import Verif.Ecm.Lemmas
import Verif.Ecm.Inv
import Verif.Ecm.Steps
import Verif.Ecm.Lossless
import Verif.Ecm.Early
import Verif.Ecm.Peer
import Verif.Ecm.Props
import Verif.Sprt.Model
import Verif.Sprt.Spec
import Verif.Sprt.Read
import Verif.Sprt.Dir
import Verif.Sprt.Inv
import Verif.Sprt.Steps
import Verif.Sprt.Keep
import Verif.Sprt.Links
import Verif.Sprt.Local
import Verif.Sprt.Run
import Verif.Sprt.Props
import Verif.Sprt.Frame
import Verif.Sprt.Recover
import Verif.Sprt.Again
import Verif.Sprt.Time
import Verif.Sprt.Busy
import Verif.Sprt.Props2
import Verif.Adsi.Model
import Verif.Adsi.Spec
import Verif.Adsi.Bits
import Verif.Adsi.Recv
import Verif.Adsi.Msg
import Verif.Adsi.Arrive
import Verif.Adsi.Fields
import Verif.Adsi.Fields2
import Verif.Adsi.Props
import Verif.Nego.Model
import Verif.Nego.Bits
import Verif.Nego.Spec
import Verif.Nego.Dis
import Verif.Nego.Dcs
import Verif.Nego.Choice
import Verif.Nego.Proofs
import Verif.Nego.Props
import Verif.Nego.Limits
import Verif.V8.Model
import Verif.V8.Spec
import Verif.V8.Bits
import Verif.V8.Decode
import Verif.V8.Receive
import Verif.V8.Machine
import Verif.V8.Timing
import Verif.V8.Props
import Verif.V8.Limits
import Verif.G722.Model
import Verif.G722.Safe
import Verif.G722.Codec
import Verif.G722.Run
import Verif.G722.Spec
import Verif.G722.Props
import Verif.G722.Accuracy
import Verif.ContactId.Model
import Verif.ContactId.Spec
import Verif.ContactId.Msg
import Verif.ContactId.Recv
import Verif.ContactId.Send
import Verif.ContactId.Hear
import Verif.ContactId.History
import Verif.ContactId.Props
import Verif.ContactId.Limits
import Verif.V8.Answer
import Verif.G726.Model
import Verif.G726.Spec
import Verif.G726.Safe
import Verif.G726.Run
import Verif.G726.Close
import Verif.G726.Laws
import Verif.G726.Tandem
import Verif.G726.Props
import Verif.G726.Limits
import Verif.ContactId.Digits
import Verif.V18.Model
import Verif.V18.Spec
import Verif.V18.Props
import Verif.V18.Limits
import Verif.SuperTone.Model
import Verif.SuperTone.Spec
import Verif.SuperTone.Props
import Verif.SuperTone.Limits
import Verif.ToneGen.Model
import Verif.ToneGen.Props
import Verif.T31.Model
import Verif.T31.Spec
import Verif.T31.Props
import Verif.T31.Limits
import Verif.At.Model
import Verif.At.Spec
import Verif.At.Props
import Verif.At.Trie
import Verif.At.TrieProps
import Verif.At.Words
import Verif.Power.Model
import Verif.Power.Props
import Verif.Calendar.Model
import Verif.Calendar.Spec
import Verif.Calendar.Lemmas
import Verif.Calendar.Props
import Verif.T35.Table
import Verif.T35.Model
import Verif.T35.Props
import Verif.Calendar.Rules
import Verif.Calendar.RulesProps
import Verif.Calendar.Zone
import Verif.Calendar.ZoneProps
import Verif.Calendar.Text
import Verif.Calendar.TextProps
import Verif.Calendar.SafeProps
import Verif.Calendar.OnlyProps
import Verif.VecInt.Model
import Verif.VecInt.Props
import Verif.VecInt.Complex
import Verif.VecInt.ComplexProps
