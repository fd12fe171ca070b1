import Verif.Model.Base
import Verif.Model.Utf8
import Verif.Model.Data
import Verif.Model.Session
import Verif.Model.Channel
import Verif.Model.UserAuth
import Verif.Model.KexMsg
import Verif.Model.Message
import Verif.Lemmas.Base
import Verif.Lemmas.Data
import Verif.Lemmas.Text
import Verif.Lemmas.MsgParse
import Verif.Lemmas.MsgTop
import Verif.Lemmas.MsgSer
import Verif.Lemmas.Mpint
import Verif.Lemmas.Session
import Verif.Props.Messages
import Verif.Model.Packet
import Verif.Model.Io
import Verif.Model.PacketIo
import Verif.Model.Identifier
import Verif.Spec.Packet
import Verif.Spec.Unframed
import Verif.Lemmas.Packet
import Verif.Lemmas.Io
import Verif.Props.Packet
import Verif.Props.Unframed
import Verif.Spec.Ident
import Verif.Lemmas.Ident
import Verif.Props.Ident
import Verif.Props.IdentExact
import Verif.Props.IdentError
import Verif.Model.Crypto
import Verif.Model.Cipher
import Verif.Model.Transport
import Verif.Spec.Cipher
import Verif.Lemmas.Cipher
import Verif.Props.Transport
import Verif.Model.Kex
import Verif.Spec.Kex
import Verif.Lemmas.Kex
import Verif.Props.Kex
import Verif.Model.Host
import Verif.Spec.Handshake
import Verif.Lemmas.Host
import Verif.Lemmas.Handshake
import Verif.Props.EndToEnd
import Verif.Props.Handshake
import Verif.Props.HandshakeExact
import Verif.Model.Auth
import Verif.Spec.Auth
import Verif.Lemmas.Send
import Verif.Lemmas.Auth
import Verif.Lemmas.AuthRun
import Verif.Props.Auth
import Verif.Props.AuthExact
import Verif.Model.Arena
import Verif.Props.Arena
import Verif.Model.Client
import Verif.Spec.Conn
import Verif.Lemmas.ConnSend
import Verif.Lemmas.Conn
import Verif.Lemmas.ConnRun
import Verif.Lemmas.ConnTrace
import Verif.Props.Conn
import Verif.Props.ConnIO
import Verif.Props.ConnEnd
import Verif.Lemmas.ConnQuiet
import Verif.Props.ConnStop
import Verif.Lemmas.ConnExec
import Verif.Props.ConnProgress
import Verif.Props.ConnWitness
import Verif.Model.Sync
import Verif.Props.Sync
import Verif.Props.SyncFair
import Verif.Model.Scp
import Verif.Spec.Scp
import Verif.Lemmas.Scp
import Verif.Props.Scp
import Verif.Props.ScpFiles
import Verif.Props.ScpSend
import Verif.Model.Sshd
import Verif.Props.Sshd
import Verif.Model.Server
import Verif.Props.Server
import Verif.Spec.Flow
import Verif.Lemmas.Flow
import Verif.Lemmas.FlowConn
import Verif.Lemmas.Whole
import Verif.Props.Whole
import Verif.Props.WholeWitness
import Verif.Props.Integrity
import Verif.Props.IntegrityWitness
import Verif.Props.Sequence
import Verif.Props.Refused
import Verif.Props.Rfc
import Verif.Props.RfcConn
import Verif.Model.SshdMain
import Verif.Props.SshdMain
import Verif.Lemmas.ConnExact
import Verif.Props.ConnExact
import Verif.Props.Command
import Verif.Props.Connection
import Verif.Props.WriteFail
import Verif.Props.ParseError
import Verif.Props.Wire
import Verif.Props.SshdStop
import Verif.Props.SshdSession
import Verif.Props.ScpExact
import Verif.Props.Dialog
import Verif.Props.Copy
import Verif.Props.Waiting
import Verif.Props.Stranger
import Verif.Props.Replay
import Verif.Props.Mutual
import Verif.Props.Everywhere
import Verif.Props.Deaf
import Verif.Props.CutWrite
import Verif.Props.Fetch
import Verif.Props.CopyMany
