import Verif.Model.Bytes
import Verif.Model.Chunk
import Verif.Model.Client
import Verif.Model.Conn
import Verif.Model.ConnLog
import Verif.Model.ConnNet
import Verif.Model.Decode
import Verif.Model.Dial
import Verif.Model.DriverPool
import Verif.Model.DriverPoolSys
import Verif.Model.Encode
import Verif.Model.ErrText
import Verif.Model.Errors
import Verif.Model.Frame
import Verif.Model.Handler
import Verif.Model.Log
import Verif.Model.Messages
import Verif.Model.Params
import Verif.Model.Pool
import Verif.Model.PoolConns
import Verif.Model.PoolSys
import Verif.Model.Protocol
import Verif.Model.Queue
import Verif.Model.Result
import Verif.Model.Threads
import Verif.Model.Url
import Verif.Model.Val
import Verif.Proofs.Aligned
import Verif.Proofs.Alike
import Verif.Proofs.BodyInv
import Verif.Proofs.Bytes
import Verif.Proofs.CM
import Verif.Proofs.Closed
import Verif.Proofs.ConnEv
import Verif.Proofs.ConnInv
import Verif.Proofs.ConnLog
import Verif.Proofs.ConnNet
import Verif.Proofs.Cut
import Verif.Proofs.DecInv
import Verif.Proofs.DecRel
import Verif.Proofs.DecodeEnc
import Verif.Proofs.DriverPool
import Verif.Proofs.EncodeConforms
import Verif.Proofs.EndsAll
import Verif.Proofs.Exchange
import Verif.Proofs.Failure
import Verif.Proofs.Framing
import Verif.Proofs.FuelMono
import Verif.Proofs.Late
import Verif.Proofs.Ledger
import Verif.Proofs.Levels
import Verif.Proofs.LogSteps
import Verif.Proofs.Lossy
import Verif.Proofs.NetSteps
import Verif.Proofs.NoTx
import Verif.Proofs.PanicSrc
import Verif.Proofs.Parse
import Verif.Proofs.PoolActs
import Verif.Proofs.PoolBlock
import Verif.Proofs.PoolCalls
import Verif.Proofs.PoolCosts
import Verif.Proofs.PoolIndex
import Verif.Proofs.PoolInv
import Verif.Proofs.PoolKeeps
import Verif.Proofs.PoolKnow
import Verif.Proofs.PoolLive
import Verif.Proofs.PoolLocks
import Verif.Proofs.PoolLogic
import Verif.Proofs.PoolMembers
import Verif.Proofs.PoolOwn
import Verif.Proofs.PoolRun
import Verif.Proofs.PoolSafe
import Verif.Proofs.PoolStarve
import Verif.Proofs.PoolSteps
import Verif.Proofs.PoolSys
import Verif.Proofs.Reorder
import Verif.Proofs.Requests
import Verif.Proofs.Room
import Verif.Proofs.RoundTrip
import Verif.Proofs.StepsAll
import Verif.Proofs.StrInv
import Verif.Proofs.Stream
import Verif.Proofs.Supported
import Verif.Proofs.Terminates
import Verif.Proofs.Threads
import Verif.Proofs.Url
import Verif.Proofs.ValEq
import Verif.Proofs.Wire
import Verif.Proofs.Writes
import Verif.Props.C01
import Verif.Props.C02
import Verif.Props.C03
import Verif.Props.C04
import Verif.Props.C05
import Verif.Props.C06
import Verif.Props.C07
import Verif.Props.C08
import Verif.Props.C09
import Verif.Props.C10
import Verif.Props.C100
import Verif.Props.C101
import Verif.Props.C102
import Verif.Props.C103
import Verif.Props.C104
import Verif.Props.C105
import Verif.Props.C106
import Verif.Props.C107
import Verif.Props.C108
import Verif.Props.C109
import Verif.Props.C11
import Verif.Props.C110
import Verif.Props.C111
import Verif.Props.C112
import Verif.Props.C113
import Verif.Props.C114
import Verif.Props.C115
import Verif.Props.C116
import Verif.Props.C117
import Verif.Props.C118
import Verif.Props.C119
import Verif.Props.C12
import Verif.Props.C120
import Verif.Props.C121
import Verif.Props.C122
import Verif.Props.C123
import Verif.Props.C124
import Verif.Props.C125
import Verif.Props.C126
import Verif.Props.C127
import Verif.Props.C128
import Verif.Props.C129
import Verif.Props.C13
import Verif.Props.C130
import Verif.Props.C131
import Verif.Props.C132
import Verif.Props.C133
import Verif.Props.C134
import Verif.Props.C135
import Verif.Props.C136
import Verif.Props.C137
import Verif.Props.C14
import Verif.Props.C15
import Verif.Props.C16
import Verif.Props.C17
import Verif.Props.C18
import Verif.Props.C19
import Verif.Props.C20
import Verif.Props.C21
import Verif.Props.C22
import Verif.Props.C23
import Verif.Props.C24
import Verif.Props.C25
import Verif.Props.C26
import Verif.Props.C27
import Verif.Props.C28
import Verif.Props.C30
import Verif.Props.C31
import Verif.Props.C32
import Verif.Props.C33
import Verif.Props.C34
import Verif.Props.C35
import Verif.Props.C36
import Verif.Props.C37
import Verif.Props.C38
import Verif.Props.C39
import Verif.Props.C40
import Verif.Props.C41
import Verif.Props.C41Default
import Verif.Props.C42
import Verif.Props.C43
import Verif.Props.C44
import Verif.Props.C45
import Verif.Props.C46
import Verif.Props.C47
import Verif.Props.C48
import Verif.Props.C49
import Verif.Props.C50
import Verif.Props.C51
import Verif.Props.C52
import Verif.Props.C54
import Verif.Props.C56
import Verif.Props.C57
import Verif.Props.C58
import Verif.Props.C59
import Verif.Props.C61
import Verif.Props.C61Live
import Verif.Props.C63
import Verif.Props.C65
import Verif.Props.C66
import Verif.Props.C67
import Verif.Props.C68
import Verif.Props.C68Routing
import Verif.Props.C69
import Verif.Props.C70
import Verif.Props.C71
import Verif.Props.C73
import Verif.Props.C74
import Verif.Props.C75
import Verif.Props.C76
import Verif.Props.C77
import Verif.Props.C79
import Verif.Props.C80
import Verif.Props.C81
import Verif.Props.C82
import Verif.Props.C83
import Verif.Props.C84
import Verif.Props.C85
import Verif.Props.C86
import Verif.Props.C87
import Verif.Props.C88
import Verif.Props.C89
import Verif.Props.C90
import Verif.Props.C91
import Verif.Props.C92
import Verif.Props.C93
import Verif.Props.C94
import Verif.Props.C95
import Verif.Props.C96
import Verif.Props.C97
import Verif.Props.C98
import Verif.Props.C99
import Verif.Spec.Alike
import Verif.Spec.DriverPool
import Verif.Spec.Exchange
import Verif.Spec.Framing
import Verif.Spec.Hazards
import Verif.Spec.History
import Verif.Spec.Interp
import Verif.Spec.Late
import Verif.Spec.Levels
import Verif.Spec.LogHistory
import Verif.Spec.Lossy
import Verif.Spec.MaySend
import Verif.Spec.NetTime
import Verif.Spec.PackStream
import Verif.Spec.Pool
import Verif.Spec.Recover
import Verif.Spec.Reorder
import Verif.Spec.Requests
import Verif.Spec.Room
import Verif.Spec.RoundTrip
import Verif.Spec.Scripted
import Verif.Spec.Server
import Verif.Spec.Supported
import Verif.Spec.Tree
import Verif.Spec.TxServer
