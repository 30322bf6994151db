import Verif.Octets.Model
import Verif.Octets.Lemmas
import Verif.Props.C01
import Verif.Props.C02
import Verif.Ranges.Model
import Verif.Ranges.Lemmas
import Verif.Ranges.Spec
import Verif.Props.C05
import Verif.Props.C06
import Verif.Props.C07
import Verif.Props.C08
import Verif.Stream.RangeBuf
import Verif.Stream.FlowControl
import Verif.Stream.RecvBuf
import Verif.Stream.RecvLemmas
import Verif.Stream.RecvInv
import Verif.Stream.RecvSpec
import Verif.Stream.RecvHist
import Verif.Props.C09
import Verif.Props.C10
import Verif.Props.C11
import Verif.Props.C12
import Verif.Props.C13
import Verif.Props.C14
import Verif.Props.C15
import Verif.Props.C55
import Verif.Props.C56
import Verif.Props.C57
import Verif.Props.C20
import Verif.Stream.SendBuf
import Verif.Stream.SendLemmas
import Verif.Stream.SendInv
import Verif.Stream.SendSpec
import Verif.Stream.SendHist
import Verif.Props.C16
import Verif.Props.C17
import Verif.Props.C18
import Verif.Props.C19
import Verif.Props.C58
import Verif.Props.C59
import Verif.Props.C60
import Verif.Stream.SendFront
import Verif.Conn.Assoc
import Verif.Conn.Model
import Verif.Conn.Fields
import Verif.Conn.Queue
import Verif.Conn.Book
import Verif.Conn.StepB
import Verif.Conn.Safe
import Verif.Conn.Reach
import Verif.Conn.Serve
import Verif.Conn.Turn
import Verif.Conn.Turn2
import Verif.Props.C21
import Verif.Props.C22
import Verif.Props.C23
import Verif.Props.C24
import Verif.Props.C25
import Verif.Props.C26
import Verif.Props.C27
import Verif.Props.C28
import Verif.Conn.Queued
import Verif.Props.C61
import Verif.Props.C62
import Verif.Props.C63
import Verif.Props.C64
import Verif.Props.C65
import Verif.Huffman.Table
import Verif.Huffman.Model
import Verif.Huffman.Bits
import Verif.Huffman.Decode
import Verif.Huffman.Encode
import Verif.Props.C03
import Verif.Props.C04
import Verif.Props.C66
import Verif.Props.C67
import Verif.Props.C29
import Verif.Props.C30
import Verif.Props.C31
import Verif.Props.C32
import Verif.Props.C68
import Verif.Packet.Num
import Verif.Packet.Header
import Verif.Packet.Spec
import Verif.Packet.HdrLemmas
import Verif.Packet.HdrEncode
import Verif.Packet.Protect
import Verif.Packet.EndToEnd
import Verif.Packet.Client
import Verif.Packet.PnManager
import Verif.Packet.PnLemmas
import Verif.Props.C33
import Verif.Props.C34
import Verif.Props.C35
import Verif.Props.C36
import Verif.Props.C69
import Verif.Props.C70
import Verif.Props.C71
import Verif.Props.C72
import Verif.Props.C73
import Verif.Props.C74
import Verif.Props.C75
import Verif.Small.Minmax
import Verif.Small.Dgram
import Verif.Small.Pmtud
import Verif.Props.C43
import Verif.Props.C44
import Verif.Props.C45
import Verif.Tp.Model
import Verif.Tp.Spec
import Verif.Tp.Decode
import Verif.Tp.Encode
import Verif.Props.C37
import Verif.Props.C76
import Verif.Cid.Model
import Verif.Cid.Lemmas
import Verif.Cid.Run
import Verif.Cid.Inv
import Verif.Props.C38
import Verif.Props.C39
import Verif.Props.C40
import Verif.Props.C77
import Verif.Props.C78
import Verif.Props.C79
import Verif.Path.Model
import Verif.Path.Conn
import Verif.Path.Run
import Verif.Path.Rel
import Verif.Path.Table
import Verif.Path.Links
import Verif.Path.Links2
import Verif.Path.Evo
import Verif.Path.Api
import Verif.Path.Step
import Verif.Path.One
import Verif.Path.Own
import Verif.Path.OwnS
import Verif.Path.Walk
import Verif.Path.Valid
import Verif.Props.C41
import Verif.Path.Bytes
import Verif.Props.C42
import Verif.Props.C81
import Verif.Props.C82
import Verif.Props.C83
import Verif.Props.C84
import Verif.Props.C80
import Verif.Rec.Model
import Verif.Rec.Lemmas
import Verif.Rec.Account
import Verif.Rec.Fate
import Verif.Props.C46
import Verif.Props.C47
import Verif.Props.C48
import Verif.Props.C85
import Verif.Props.C86
import Verif.Props.C87
import Verif.Props.C88
import Verif.Props.C89
import Verif.Life.Model
import Verif.Life.Lemmas
import Verif.Props.C49
import Verif.Props.C90
import Verif.Props.C91
import Verif.Props.C92
import Verif.Props.C93
import Verif.Props.C94
import Verif.Props.C95
import Verif.Props.C96
import Verif.Props.C51
import Verif.Props.C52
import Verif.Props.C53
import Verif.Props.C97
import Verif.H3.Frame
import Verif.H3.Format
import Verif.H3.Write
import Verif.H3.Config
import Verif.H3.Stream
import Verif.H3.Conn
import Verif.H3.Message
import Verif.H3.Run
import Verif.H3.Fill
import Verif.H3.Match
import Verif.H3.Iter
import Verif.H3.Live
import Verif.H3.Inv
import Verif.H3.Exec
import Verif.H3.Unique
import Verif.Props.C54
import Verif.Props.C100
import Verif.Props.C101
import Verif.Props.C102
import Verif.H3.Track
import Verif.H3.Crit
import Verif.H3.Trace
import Verif.Props.C103
import Verif.Props.C104
import Verif.Props.C110
import Verif.Props.C112
import Verif.Props.C50
import Verif.Props.C98
import Verif.Props.C99
import Verif.H3.Mild
import Verif.H3.Once
import Verif.Props.C105
import Verif.Props.C107
import Verif.Props.C108
import Verif.Props.C111
import Verif.H3.Quiet
import Verif.Props.C106
import Verif.H3.Send
import Verif.H3.Sent
import Verif.H3.SendInv
import Verif.H3.SendStep
import Verif.Props.C109
import Verif.Props.C113
import Verif.Props.C114
import Verif.Props.C115
import Verif.Ack.Model
import Verif.Ack.Ranges
import Verif.Ack.Inv
import Verif.Ack.Complete
import Verif.Props.C116
import Verif.Props.C117
import Verif.Props.C118
import Verif.Packet.KeyUpdate
import Verif.Props.C119
import Verif.Props.C120
import Verif.Props.C121
import Verif.Cong.Model
import Verif.Cong.Moves
import Verif.Cong.Lemmas
import Verif.Cong.Trace
import Verif.Props.C122
import Verif.Props.C123
import Verif.Props.C124
import Verif.Props.C125
import Verif.Props.C126
import Verif.Props.C127
import Verif.Props.C128
import Verif.Props.C129
import Verif.GRec.Model
import Verif.GRec.Lemmas
import Verif.GRec.Step
import Verif.GRec.Facts
import Verif.GRec.Trace
import Verif.Props.C130
import Verif.Props.C131
import Verif.Props.C132
import Verif.Props.C133
import Verif.Props.C134
import Verif.Bbr.Bandwidth
import Verif.Bbr.Filter
import Verif.Bbr.Sampler
import Verif.Bbr.MapLemmas
import Verif.Bbr.SamplerInv
import Verif.Bbr.Pacer
import Verif.Props.C135
import Verif.Props.C136
import Verif.Props.C137
import Verif.Props.C138
import Verif.Props.C139
import Verif.Props.C140
import Verif.Bbr.Net
import Verif.Bbr.Modes
import Verif.Bbr.ModesInv
import Verif.Bbr.RunInv
import Verif.Bbr.Sample
import Verif.Bbr.NetInv
import Verif.Bbr.CycleInv
import Verif.Bbr.HiInv
import Verif.Bbr.LoInv
import Verif.Bbr.MildInv
import Verif.Props.C141
import Verif.Props.C142
import Verif.Props.C143
import Verif.Props.C144
import Verif.Props.C145
import Verif.Props.C146
import Verif.Props.C147
import Verif.Props.C148
import Verif.Stream.Pair
import Verif.Stream.PairRead
import Verif.Stream.PairLive
import Verif.Stream.PairWindow
import Verif.Props.C149
import Verif.Props.C150
import Verif.Tq.Token
import Verif.Tq.Map
import Verif.Props.C151
import Verif.Tq.Router
import Verif.Tq.RouterInv
import Verif.Props.C152
import Verif.Tq.Gather
import Verif.Props.C153
import Verif.Tq.Pool
import Verif.Props.C154
import Verif.Tq.DgramBuf
import Verif.Props.C155
import Verif.Tq.Flows
import Verif.Props.C156
import Verif.Rec.Rate
import Verif.Props.C157
import Verif.Tq.Driver
import Verif.Props.C158
import Verif.Props.C159
import Verif.Small.Assembly
import Verif.Props.C160
import Verif.Small.PmtudPaths
import Verif.Props.C161
import Verif.Tq.Bandwidth
import Verif.Props.C162
import Verif.Octets.Api
import Verif.Props.C163
import Verif.Tq.Killswitch
import Verif.Props.C164
import Verif.Small.DgramConn
import Verif.Props.C165
import Verif.Small.Resume
import Verif.Props.C166
import Verif.Props.C167
import Verif.Props.C168
import Verif.Small.Qlog
import Verif.Props.C169
import Verif.Small.InFlight
import Verif.Props.C170
import Verif.Small.Jump
import Verif.Props.C171
import Verif.Small.Coalesce
import Verif.Props.C172
import Verif.Tq.Connector
import Verif.Props.C173
import Verif.Tq.Requests
import Verif.Props.C174
import Verif.Stream.Crypto
import Verif.Props.C175
import Verif.Tq.Worker
import Verif.Tq.WorkerSteps
import Verif.Props.C176
import Verif.H3i.Parser
import Verif.H3i.Inv
import Verif.H3i.Step
import Verif.Props.C177
import Verif.H3.Uni
import Verif.Props.C178
import Verif.Conn.Setup
import Verif.Props.C179
import Verif.Conn.Tls
import Verif.Props.C180
import Verif.Packet.Keys
import Verif.Props.C181
import Verif.Ffi.Model
import Verif.Props.C182
import Verif.Tq.Batch
import Verif.Props.C183
import Verif.H3.Prio
import Verif.Props.C184
import Verif.Props.C185
import Verif.Tq.PostAccept
import Verif.Props.C186
import Verif.Tp.Reserved
import Verif.Props.C187
import Verif.Rec.Stats
import Verif.Props.C188
import Verif.Tq.Ancillary
import Verif.Props.C189
import Verif.Conn.Ends
import Verif.Props.C190
import Verif.Path.Serve
import Verif.Props.C191
import Verif.Ping.Model
import Verif.Ping.Proof
import Verif.Props.C192
import Verif.Rand.Model
import Verif.Props.C193
import Verif.Dancer.Trackers
import Verif.Props.C194
import Verif.Apps.Serve
import Verif.Props.C195
import Verif.Apps.Files
import Verif.Props.C196
