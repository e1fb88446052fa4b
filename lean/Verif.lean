import Verif.Props.Backlog
import Verif.Props.BodyChan
import Verif.Props.Buf
import Verif.Props.Buffered
import Verif.Props.Builders
import Verif.Props.ClientChan
import Verif.Props.ClientEncode
import Verif.Props.ClientParse
import Verif.Props.ClientTask
import Verif.Props.ClosedLoop
import Verif.Props.Compat
import Verif.Props.Conn
import Verif.Props.CrossCut
import Verif.Props.CutOff
import Verif.Props.CutReply
import Verif.Props.Decode
import Verif.Props.DownCross
import Verif.Props.Downgrade
import Verif.Props.Encode
import Verif.Props.EncodedBuf
import Verif.Props.EndToEnd
import Verif.Props.Ended
import Verif.Props.Errors
import Verif.Props.Executor
import Verif.Props.FfiBody
import Verif.Props.FfiHeaders
import Verif.Props.FfiRequest
import Verif.Props.FfiSend
import Verif.Props.Forward
import Verif.Props.GoneCaller
import Verif.Props.H1Upgrade
import Verif.Props.H2Client
import Verif.Props.H2ClientConn
import Verif.Props.H2CutOff
import Verif.Props.H2KeepAlive
import Verif.Props.H2Ping
import Verif.Props.H2PingPanics
import Verif.Props.H2Pipe
import Verif.Props.H2Reader
import Verif.Props.H2Server
import Verif.Props.H2Upgrade
import Verif.Props.H2Upgraded
import Verif.Props.HeaderCase
import Verif.Props.Headers
import Verif.Props.Incoming
import Verif.Props.Informational
import Verif.Props.Input
import Verif.Props.Intake
import Verif.Props.LengthCross
import Verif.Props.OnUpgrade
import Verif.Props.Panics
import Verif.Props.Phrase
import Verif.Props.PollLoop
import Verif.Props.Prompt
import Verif.Props.ReadBuf
import Verif.Props.Received
import Verif.Props.Report
import Verif.Props.RoundTrip
import Verif.Props.ServerEncode
import Verif.Props.ServerParse
import Verif.Props.Shutdown
import Verif.Props.Small
import Verif.Props.Standoff
import Verif.Props.TrailerCross
import Verif.Props.TrailerRelay
import Verif.Props.Tunnel
import Verif.Props.Upgraded
import Verif.Props.Watch
import Verif.Props.Wire
import Verif.Props.WriteBuf
import Verif.Conform.Bodies
import Verif.Conform.Channels
import Verif.Conform.Client
import Verif.Conform.Heads
import Verif.Conform.Server
import Verif.Audit
