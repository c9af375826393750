import Verif.Model.AcceptSlices
import Verif.Model.Address
import Verif.Model.Attempts
import Verif.Model.Base58
import Verif.Model.Base64
import Verif.Model.BatchStart
import Verif.Model.Bech32
import Verif.Model.Bench
import Verif.Model.Blame
import Verif.Model.Bytes
import Verif.Model.Calls
import Verif.Model.Ceremony
import Verif.Model.Comm
import Verif.Model.Conversion
import Verif.Model.Coordinator
import Verif.Model.Curve
import Verif.Model.Digests
import Verif.Model.FlagText
import Verif.Model.Flags
import Verif.Model.Go
import Verif.Model.GoSort
import Verif.Model.Http
import Verif.Model.JoinNet
import Verif.Model.JoinParty
import Verif.Model.JoinTimer
import Verif.Model.Json
import Verif.Model.JsonHttp
import Verif.Model.JsonMsg
import Verif.Model.JsonState
import Verif.Model.KeySign
import Verif.Model.Keygen
import Verif.Model.Leader
import Verif.Model.Locks
import Verif.Model.Main
import Verif.Model.Messages
import Verif.Model.Metric
import Verif.Model.MsgId
import Verif.Model.Multiaddr
import Verif.Model.Notifier
import Verif.Model.OutBatch
import Verif.Model.PeerStatus
import Verif.Model.Protobuf
import Verif.Model.RealKeys
import Verif.Model.Recovery
import Verif.Model.RecoveryFiles
import Verif.Model.Ripemd160
import Verif.Model.Secp
import Verif.Model.SemVerText
import Verif.Model.Server
import Verif.Model.Service
import Verif.Model.SessNet
import Verif.Model.Session
import Verif.Model.SessionCall
import Verif.Model.Sha256
import Verif.Model.Startup
import Verif.Model.Storage
import Verif.Model.Stream
import Verif.Model.StreamMgr
import Verif.Model.StreamSlices
import Verif.Model.Subscribers
import Verif.Model.Threshold
import Verif.Model.Timer
import Verif.Model.ToolFlags
import Verif.Model.TssCommon
import Verif.Model.Version
import Verif.Spec.Accepts
import Verif.Spec.Arrivals
import Verif.Spec.Base64
import Verif.Spec.Bech32
import Verif.Spec.Ceremony
import Verif.Spec.CommandLine
import Verif.Spec.Committee
import Verif.Spec.DemoCode
import Verif.Spec.DemoCommittee
import Verif.Spec.DemoJoinNet
import Verif.Spec.DemoServer
import Verif.Spec.DemoSessN
import Verif.Spec.DemoSessNet
import Verif.Spec.DemoSession
import Verif.Spec.DemoWire
import Verif.Spec.FlagText
import Verif.Spec.Json
import Verif.Spec.JsonMsg
import Verif.Spec.JsonRead
import Verif.Spec.KeySign
import Verif.Spec.Keygen
import Verif.Spec.Locks
import Verif.Spec.Multiaddr
import Verif.Spec.PeerId
import Verif.Spec.Protobuf
import Verif.Spec.Recovery
import Verif.Spec.RecoveryFiles
import Verif.Spec.Ripemd160
import Verif.Spec.Secp
import Verif.Spec.SemVer
import Verif.Spec.SemVerText
import Verif.Spec.Server
import Verif.Spec.SessNet
import Verif.Spec.Session
import Verif.Spec.Sha256
import Verif.Spec.ToolLine
import Verif.Lemmas.Base58
import Verif.Lemmas.Bech32
import Verif.Lemmas.Bech32Distance
import Verif.Lemmas.Bech32Four
import Verif.Lemmas.Bech32Spec
import Verif.Lemmas.Bech32Table
import Verif.Lemmas.Blame
import Verif.Lemmas.Bytes
import Verif.Lemmas.CacheKey
import Verif.Lemmas.Ceremony
import Verif.Lemmas.CeremonyCheck
import Verif.Lemmas.CeremonyRest
import Verif.Lemmas.CeremonySim
import Verif.Lemmas.Conversion
import Verif.Lemmas.Curve
import Verif.Lemmas.Freq
import Verif.Lemmas.GoSort
import Verif.Lemmas.JoinNet
import Verif.Lemmas.JoinParty
import Verif.Lemmas.KeySign
import Verif.Lemmas.Keygen
import Verif.Lemmas.PeerStatus
import Verif.Lemmas.Progress
import Verif.Lemmas.Recovery
import Verif.Lemmas.Relabel
import Verif.Lemmas.Ripemd160
import Verif.Lemmas.Secp
import Verif.Lemmas.Server
import Verif.Lemmas.SessNet
import Verif.Lemmas.SessOrigin
import Verif.Lemmas.Session
import Verif.Lemmas.Sha256
import Verif.Lemmas.Shape
import Verif.Lemmas.Stream
import Verif.Lemmas.Threshold
import Verif.Lemmas.TssCommon
import Verif.Props.C01
import Verif.Props.C02_C05
import Verif.Props.C06
import Verif.Props.C08
import Verif.Props.C09_C10
import Verif.Props.C102_C106
import Verif.Props.C107
import Verif.Props.C108_C109
import Verif.Props.C110
import Verif.Props.C111
import Verif.Props.C112
import Verif.Props.C113
import Verif.Props.C114
import Verif.Props.C115_C116
import Verif.Props.C117_C119
import Verif.Props.C11_C12
import Verif.Props.C120
import Verif.Props.C121
import Verif.Props.C122
import Verif.Props.C123
import Verif.Props.C124
import Verif.Props.C125
import Verif.Props.C126
import Verif.Props.C127
import Verif.Props.C128
import Verif.Props.C129
import Verif.Props.C130
import Verif.Props.C131
import Verif.Props.C132
import Verif.Props.C133
import Verif.Props.C134
import Verif.Props.C135
import Verif.Props.C136
import Verif.Props.C137
import Verif.Props.C138
import Verif.Props.C139
import Verif.Props.C13_C14
import Verif.Props.C140
import Verif.Props.C141
import Verif.Props.C142
import Verif.Props.C143
import Verif.Props.C144
import Verif.Props.C145
import Verif.Props.C146
import Verif.Props.C147
import Verif.Props.C148
import Verif.Props.C149
import Verif.Props.C150
import Verif.Props.C151
import Verif.Props.C152
import Verif.Props.C15_C16
import Verif.Props.C17_C18
import Verif.Props.C19_C24
import Verif.Props.C25_C30
import Verif.Props.C31_C36
import Verif.Props.C37
import Verif.Props.C38_C41
import Verif.Props.C42_C44
import Verif.Props.C46
import Verif.Props.C47_C48
import Verif.Props.C49_C51
import Verif.Props.C52_C53
import Verif.Props.C54_C57
import Verif.Props.C58_C60
import Verif.Props.C61
import Verif.Props.C62
import Verif.Props.C63
import Verif.Props.C64
import Verif.Props.C65_C66
import Verif.Props.C72_C73
import Verif.Props.C87_C91
import Verif.Props.C92_C93
import Verif.Props.C94
import Verif.Props.C95_C96
import Verif.Props.C97_C98
import Verif.Props.C99_C101
