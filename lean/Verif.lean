import Verif.Codec.Laws
import Verif.Codec.Drivers
import Verif.Props.C01_C05
import Verif.Codec.EncoderLaws
import Verif.Props.C06
import Verif.Props.C07
import Verif.Props.C18_C19
import Verif.Props.C08_C12
import Verif.Props.C10Errors
import Verif.Props.C13_C17
import Verif.Primitives.OutPointText
import Verif.Props.C14
import Verif.Props.C22
import Verif.Props.C23_C24
import Verif.Props.C37_C38
import Verif.Props.C39
import Verif.Props.C42
import Verif.Props.C43
import Verif.Props.C45
import Verif.Props.C46
import Verif.Props.C47
import Verif.Props.C31_C33
import Verif.Props.C34
import Verif.Props.C35
import Verif.Props.C36
import Verif.Props.C29_C30
import Verif.Props.C25_C26
import Verif.Props.C27_C28
import Verif.Props.C61
import Verif.Props.C48
import Verif.Props.C62
import Verif.Props.C49
import Verif.Props.C63
import Verif.Props.C64
import Verif.Props.C65
import Verif.Props.C50
import Verif.Props.C51
import Verif.Props.C52
import Verif.Props.C53
import Verif.Props.C55
import Verif.Props.C60
import Verif.Props.C56
import Verif.Props.C66
import Verif.Props.C67
import Verif.Props.C57
import Verif.Props.C59
import Verif.Props.C68
import Verif.Props.C69
import Verif.Props.C70
import Verif.Props.C54
import Verif.Props.C71
import Verif.Props.C72
import Verif.Props.C73
import Verif.Props.C58
import Verif.Props.C50Bip341
import Verif.Addresses.Bech32
import Verif.Addresses.Bech32Laws
import Verif.Addresses.Network
import Verif.Addresses.Address
import Verif.Props.C74
import Verif.Props.C75
import Verif.Props.C76
import Verif.Props.C77
import Verif.Props.C78
import Verif.P2p.ServiceFlags
import Verif.TextRadix
import Verif.Units.HexInt
import Verif.Props.C79
import Verif.Props.C80
import Verif.Bitcoin.P2trWitness
import Verif.Props.C81
import Verif.Units.U256Float
import Verif.Props.C82
import Verif.Hashes.Simd
import Verif.Hashes.SimdLaws
import Verif.Hashes.ShaNi
import Verif.Hashes.ShaNiLaws
import Verif.Hashes.ShaNiRun
import Verif.Hashes.ShaNiBlocks
import Verif.Hashes.Dispatch
import Verif.Props.C83
import Verif.Script.Asm
import Verif.Props.C84
import Verif.Bitcoin.TxHelpers
import Verif.Props.C85
import Verif.Units.AmountFloat
import Verif.Props.C86
import Verif.Units.NumOp
import Verif.Props.C87
import Verif.P2p.Socket
import Verif.Props.C88
import Verif.P2p.UserAgent
import Verif.Props.C89
import Verif.P2p.Chains
import Verif.Props.C90
import Verif.Serde.Data
import Verif.Serde.Impls
import Verif.Props.C91
import Verif.Serde.Amount
import Verif.Props.C92
import Verif.Serde.Taproot
import Verif.Props.C93
import Verif.Serde.Text
import Verif.Props.C94
import Verif.Props.C95
import Verif.Props.C96
import Verif.Props.C97
import Verif.Bitcoin.SignTx
import Verif.Bitcoin.FeePlan
import Verif.P2p.Session
import Verif.Props.C98
import Verif.Bitcoin.Wallet
import Verif.Props.C99
import Verif.P2p.LightClient
import Verif.Props.C100
import Verif.Props.C101
import Verif.Props.C102
import Verif.Primitives.HexText
import Verif.Props.C103
import Verif.Internals.Slice
import Verif.Props.C104
import Verif.Hashes.HashText
import Verif.Props.C105
import Verif.Io.Bridge
import Verif.Props.C106
import Verif.Props.C107
import Verif.Props.C108
import Verif.Props.C109
import Verif.Codec.Roundtrip
import Verif.Props.C110
import Verif.Fuzz.Arbitrary
import Verif.Fuzz.Targets
import Verif.Props.C111
import Verif.Props.C112
import Verif.Bitcoin.Examples
import Verif.Bitcoin.TaprootErrors
import Verif.Bitcoin.BlockErrors
import Verif.Props.C113
import Verif.Props.C114
import Verif.Props.C115
import Verif.Units.AmountErrors
import Verif.Props.C116
import Verif.Units.LockErrors
import Verif.Units.TextErrors
import Verif.Props.C117
import Verif.Props.C118
import Verif.Props.C119
import Verif.Props.C120
import Verif.Props.C121
import Verif.Props.C122
import Verif.Verification.Kani
import Verif.Props.C123
import Verif.Bitcoin.ScriptErrors
import Verif.Props.C124
import Verif.P2p.Errors
import Verif.Props.C125
import Verif.Props.C126
import Verif.Debug.Debug
import Verif.Props.C127
import Verif.Props.C128
import Verif.Props.C129
import Verif.Props.C130
import Verif.Props.C131
import Verif.Props.C132
import Verif.Props.C133
import Verif.Props.C134
import Verif.Props.C135
import Verif.Props.C136
