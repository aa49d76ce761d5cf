import Verif.Base
import Verif.Model.IO
import Verif.Model.Mask
import Verif.Model.Header
import Verif.Model.DataFrame
import Verif.Spec.Frame
import Verif.Lemmas.U8
import Verif.Lemmas.Mask
import Verif.Lemmas.IO
import Verif.Lemmas.Parse
import Verif.Spec.Abs
import Verif.Lemmas.Frame
import Verif.Model.Utf8
import Verif.Model.Message
import Verif.Lemmas.Measure
import Verif.Model.Receiver
import Verif.Model.BytesMut
import Verif.Model.Codec
import Verif.Lemmas.DfCodec
import Verif.Model.MsgCodec
import Verif.Lemmas.Sound
import Verif.Props.Frame
import Verif.Lemmas.Utf8
import Verif.Lemmas.Message
import Verif.Props.Message
import Verif.Lemmas.Recv
import Verif.Lemmas.Sample
import Verif.Model.Framed
import Verif.Spec.Session
import Verif.Lemmas.Session
import Verif.Lemmas.Framed
import Verif.Lemmas.Script
import Verif.Lemmas.Many
import Verif.Props.Receive
import Verif.Lemmas.Shrink
import Verif.Lemmas.Limits
import Verif.Props.Limits
import Verif.Lemmas.Agree
import Verif.Model.Send
import Verif.Lemmas.Send
import Verif.Spec.Send
import Verif.Lemmas.EndToEnd
import Verif.Lemmas.Retry
import Verif.Lemmas.StdLoops
import Verif.Props.EndToEnd
import Verif.Model.Base64
import Verif.Spec.Base64
import Verif.Model.Sha1
import Verif.Lemmas.Sha1
import Verif.Lemmas.Base64
import Verif.Model.Keys
import Verif.Props.Keys
import Verif.Model.Text
import Verif.Spec.Text
import Verif.Model.Headers
import Verif.Lemmas.Text
import Verif.Lemmas.Headers
import Verif.Props.Headers
import Verif.Model.Http
import Verif.Model.BufReader
import Verif.Lemmas.BufReader
import Verif.Model.Client
import Verif.Props.Client
import Verif.Model.HttpCodec
import Verif.Model.Server
import Verif.Spec.Handshake
import Verif.Lemmas.HeaderMap
import Verif.Lemmas.Handshake
import Verif.Props.Server
import Verif.Lemmas.Response
import Verif.Props.Response
import Verif.Model.Builder
import Verif.Model.Httparse
import Verif.Props.Connect
import Verif.Props.Validate
import Verif.Lemmas.Builder
import Verif.Props.Builder
import Verif.Lemmas.Head
import Verif.Lemmas.Wire
import Verif.Props.Head
import Verif.Props.Handshake
import Verif.Model.Talk
import Verif.Model.Echo
import Verif.Spec.Talk
import Verif.Spec.Echo
import Verif.Lemmas.Talk
import Verif.Lemmas.Connection
import Verif.Lemmas.Echo
import Verif.Props.Connection
import Verif.Props.Echo
import Verif.Model.Accept
import Verif.Spec.Accept
import Verif.Lemmas.Accept
import Verif.Props.Accept
import Verif.Lemmas.Prompt
import Verif.Props.Prompt
import Verif.Model.Chat
import Verif.Spec.Chat
import Verif.Lemmas.Chat
import Verif.Props.Chat
import Verif.Model.Dialogue
import Verif.Spec.Dialogue
import Verif.Lemmas.Dialogue
import Verif.Props.Dialogue
import Verif.Spec.Heard
import Verif.Lemmas.Heard
import Verif.Props.Heard
import Verif.Spec.Mixed
import Verif.Props.Mixed
import Verif.Spec.Blame
import Verif.Lemmas.Blame
import Verif.Props.Blame
import Verif.Spec.Target
import Verif.Props.Target
import Verif.Props.Negotiate
import Verif.Props.HandBack
import Verif.Model.Parallel
import Verif.Lemmas.Parallel
import Verif.Props.Parallel
import Verif.Spec.Chunking
import Verif.Lemmas.Lenient
import Verif.Props.Chunking
import Verif.Lemmas.Cut
import Verif.Props.Cut
import Verif.Props.Growth
import Verif.Props.Gate
import Verif.Model.Cases
import Verif.Spec.Cases
import Verif.Lemmas.Cases
import Verif.Props.Cases
import Verif.Model.AsyncChat
import Verif.Spec.AsyncChat
import Verif.Lemmas.AsyncChat
import Verif.Props.AsyncChat
import Verif.Props.SslChat
import Verif.Props.Unchecked
import Verif.Model.Errors
import Verif.Props.Errors
import Verif.Model.Meeting
import Verif.Lemmas.Opening
import Verif.Lemmas.Meeting
import Verif.Lemmas.Gone
import Verif.Props.Meeting
import Verif.Spec.Inject
import Verif.Lemmas.Inject
import Verif.Lemmas.Each
import Verif.Lemmas.Format
import Verif.Props.Inject
import Verif.Lemmas.Memory
import Verif.Props.Panic
import Verif.Props.Memory
import Verif.Spec.GoOn
import Verif.Lemmas.GoOn
import Verif.Props.GoOn
import Verif.Model.Raw
import Verif.Spec.Raw
import Verif.Lemmas.Raw
import Verif.Props.Raw
import Verif.Model.Tight
import Verif.Spec.Tight
import Verif.Lemmas.Tight
import Verif.Props.Tight
import Verif.Model.Live
import Verif.Spec.Live
import Verif.Lemmas.Live
import Verif.Props.Live
import Verif.Props.Agree
import Verif.Props.Pairs
import Verif.Model.Suite
import Verif.Spec.Suite
import Verif.Lemmas.Suite
import Verif.Props.Suite
import Verif.Model.Tasks
import Verif.Spec.Tasks
import Verif.Lemmas.Count
import Verif.Lemmas.Tasks
import Verif.Lemmas.Tandem
import Verif.Props.Tasks
import Verif.Model.Mains
import Verif.Spec.Mains
import Verif.Props.Mains
import Verif.Props.Entry
import Verif.Lemmas.Lasting
import Verif.Props.Lasting
import Verif.Model.Whole
import Verif.Spec.Whole
import Verif.Lemmas.Whole
import Verif.Props.Whole
import Verif.Model.AsyncWhole
import Verif.Lemmas.AsyncWhole
import Verif.Props.AsyncWhole
import Verif.Model.Adaptive
import Verif.Lemmas.Adaptive
import Verif.Props.Adaptive
import Verif.Model.Encounter
import Verif.Lemmas.Encounter
import Verif.Props.Encounter
import Verif.Model.Stranger
import Verif.Spec.Stranger
import Verif.Lemmas.Stranger
import Verif.Props.Stranger
import Verif.Model.Doorstep
import Verif.Spec.Doorstep
import Verif.Lemmas.Doorstep
import Verif.Props.Doorstep
import Verif.Model.Reception
import Verif.Spec.Reception
import Verif.Lemmas.Reception
import Verif.Props.Reception
import Verif.Model.Crowd
import Verif.Spec.Crowd
import Verif.Lemmas.Crowd
import Verif.Props.Crowd
import Verif.Model.Word
import Verif.Spec.Word
import Verif.Lemmas.Word
import Verif.Props.Word
import Verif.Model.Desk
import Verif.Spec.Desk
import Verif.Lemmas.Desk
import Verif.Lemmas.Greeted
import Verif.Props.Desk
import Verif.Model.Bureau
import Verif.Spec.Bureau
import Verif.Lemmas.Bureau
import Verif.Props.Bureau
import Verif.Model.Hall
import Verif.Spec.Hall
import Verif.Lemmas.Hall
import Verif.Lemmas.Upgraded
import Verif.Props.Hall
import Verif.Lemmas.Final
import Verif.Props.Final
