import Verif.Basic
import Verif.Model.Base64
import Verif.Model.Blocking
import Verif.Model.Clock
import Verif.Model.Component
import Verif.Model.Conformance
import Verif.Model.ConformanceKeys
import Verif.Model.Crypto
import Verif.Model.Der
import Verif.Model.Digest
import Verif.Model.Ec
import Verif.Model.Ecdsa
import Verif.Model.Ed
import Verif.Model.ErrText
import Verif.Model.Examples
import Verif.Model.Frames
import Verif.Model.HeaderMap
import Verif.Model.Http
import Verif.Model.Hyper
import Verif.Model.JoinAll
import Verif.Model.KeyText
import Verif.Model.Log
import Verif.Model.ModArith
import Verif.Model.Repair
import Verif.Model.Rfc6979
import Verif.Model.Rsa
import Verif.Model.Sfv
import Verif.Model.Sha2
import Verif.Model.Sha384
import Verif.Model.SigBase
import Verif.Model.SigParams
import Verif.Model.Std
import Verif.Model.Tests
import Verif.Model.Timing
import Verif.Model.UniqueHash
import Verif.Model.UriText
import Verif.Proofs.Asn1
import Verif.Proofs.Asn1Keys
import Verif.Proofs.Asn1Pem
import Verif.Proofs.Base
import Verif.Proofs.Base64
import Verif.Proofs.Base64Lenient
import Verif.Proofs.Base64Spec
import Verif.Proofs.Canon
import Verif.Proofs.Chain
import Verif.Proofs.Der
import Verif.Proofs.EcCount
import Verif.Proofs.EcDom
import Verif.Proofs.EcFast
import Verif.Proofs.EcGood
import Verif.Proofs.EcGroup
import Verif.Proofs.EcSpec
import Verif.Proofs.Ecdsa
import Verif.Proofs.Ed
import Verif.Proofs.EdSig
import Verif.Proofs.EdSpec
import Verif.Proofs.Edwards
import Verif.Proofs.ErrReading
import Verif.Proofs.ErrSays
import Verif.Proofs.ErrSigning
import Verif.Proofs.ErrText
import Verif.Proofs.ErrVerify
import Verif.Proofs.Failure
import Verif.Proofs.FailureRead
import Verif.Proofs.Forward
import Verif.Proofs.Http
import Verif.Proofs.Hyper
import Verif.Proofs.Ids
import Verif.Proofs.JoinAll
import Verif.Proofs.KeyText
import Verif.Proofs.Length
import Verif.Proofs.LengthValue
import Verif.Proofs.Log
import Verif.Proofs.ModArith
import Verif.Proofs.Panic
import Verif.Proofs.ParamsRead
import Verif.Proofs.ParamsText
import Verif.Proofs.Primes
import Verif.Proofs.RepairBase
import Verif.Proofs.RepairRead
import Verif.Proofs.RepairSign
import Verif.Proofs.RepairText
import Verif.Proofs.RepairVerify
import Verif.Proofs.Rfc
import Verif.Proofs.Rfc6979
import Verif.Proofs.RfcBoth
import Verif.Proofs.RfcExact
import Verif.Proofs.RfcLines
import Verif.Proofs.RfcStructured
import Verif.Proofs.Rsa
import Verif.Proofs.RsaSpec
import Verif.Proofs.SfvCanonical
import Verif.Proofs.SfvGrammar
import Verif.Proofs.SfvGrammarTop
import Verif.Proofs.SfvLegal
import Verif.Proofs.SfvRoundTrip
import Verif.Proofs.SfvScan
import Verif.Proofs.Sha
import Verif.Proofs.Sha2
import Verif.Proofs.Sha256
import Verif.Proofs.Sha384
import Verif.Proofs.Sha512
import Verif.Proofs.Sign
import Verif.Proofs.Standard
import Verif.Proofs.Tests
import Verif.Proofs.Text
import Verif.Proofs.UriText
import Verif.Proofs.Value
import Verif.Proofs.Weight
import Verif.Proofs.WireIds
import Verif.Proofs.WireParams
import Verif.Proofs.WireValue
import Verif.Props.C01
import Verif.Props.C04
import Verif.Props.C05
import Verif.Props.C08
import Verif.Props.C09
import Verif.Props.C10
import Verif.Props.C100
import Verif.Props.C101
import Verif.Props.C102
import Verif.Props.C103
import Verif.Props.C104
import Verif.Props.C105
import Verif.Props.C106
import Verif.Props.C107
import Verif.Props.C108
import Verif.Props.C109
import Verif.Props.C110
import Verif.Props.C111
import Verif.Props.C112
import Verif.Props.C113
import Verif.Props.C114
import Verif.Props.C115
import Verif.Props.C116
import Verif.Props.C117
import Verif.Props.C118
import Verif.Props.C119
import Verif.Props.C120
import Verif.Props.C121
import Verif.Props.C122
import Verif.Props.C123
import Verif.Props.C124
import Verif.Props.C125
import Verif.Props.C126
import Verif.Props.C127
import Verif.Props.C128
import Verif.Props.C129
import Verif.Props.C13
import Verif.Props.C130
import Verif.Props.C131
import Verif.Props.C132
import Verif.Props.C133
import Verif.Props.C134
import Verif.Props.C135
import Verif.Props.C136
import Verif.Props.C137
import Verif.Props.C14
import Verif.Props.C16
import Verif.Props.C18
import Verif.Props.C19
import Verif.Props.C22
import Verif.Props.C27
import Verif.Props.C32
import Verif.Props.C33
import Verif.Props.C36
import Verif.Props.C39
import Verif.Props.C40
import Verif.Props.C57
import Verif.Props.C58
import Verif.Props.C59
import Verif.Props.C60
import Verif.Props.C61
import Verif.Props.C62
import Verif.Props.C63
import Verif.Props.C64
import Verif.Props.C65
import Verif.Props.C66
import Verif.Props.C67
import Verif.Props.C68
import Verif.Props.C69
import Verif.Props.C70
import Verif.Props.C71
import Verif.Props.C72
import Verif.Props.C73
import Verif.Props.C74
import Verif.Props.C75
import Verif.Props.C76
import Verif.Props.C77
import Verif.Props.C78
import Verif.Props.C79
import Verif.Props.C80
import Verif.Props.C81
import Verif.Props.C82
import Verif.Props.C83
import Verif.Props.C84
import Verif.Props.C85
import Verif.Props.C86
import Verif.Props.C87
import Verif.Props.C88
import Verif.Props.C89
import Verif.Props.C90
import Verif.Props.C91
import Verif.Props.C92
import Verif.Props.C93
import Verif.Props.C94
import Verif.Props.C95
import Verif.Props.C96
import Verif.Props.C97
import Verif.Props.C98
import Verif.Props.C99
import Verif.Spec.Agree
import Verif.Spec.Arrival
import Verif.Spec.Ask
import Verif.Spec.Asn1
import Verif.Spec.Base64
import Verif.Spec.Builds
import Verif.Spec.Cache
import Verif.Spec.CallOrder
import Verif.Spec.Calm
import Verif.Spec.Canonical
import Verif.Spec.Chain
import Verif.Spec.Chunked
import Verif.Spec.Clean
import Verif.Spec.Component
import Verif.Spec.Deploy
import Verif.Spec.Ecdsa
import Verif.Spec.Eddsa
import Verif.Spec.ErrText
import Verif.Spec.Exchange
import Verif.Spec.Failure
import Verif.Spec.Forge
import Verif.Spec.Forgery
import Verif.Spec.Forward
import Verif.Spec.Frames
import Verif.Spec.Grammar
import Verif.Spec.Guard
import Verif.Spec.Http1
import Verif.Spec.Http1Answers
import Verif.Spec.Http1Connection
import Verif.Spec.Http1Response
import Verif.Spec.Http1Stream
import Verif.Spec.Http2
import Verif.Spec.Http2Streams
import Verif.Spec.KeyText
import Verif.Spec.Keys
import Verif.Spec.Layout
import Verif.Spec.Lines
import Verif.Spec.Log
import Verif.Spec.Message
import Verif.Spec.Nonce
import Verif.Spec.Panic
import Verif.Spec.Parts
import Verif.Spec.Path
import Verif.Spec.Phases
import Verif.Spec.Pick
import Verif.Spec.Quorum
import Verif.Spec.Relabel
import Verif.Spec.Relay
import Verif.Spec.Reorder
import Verif.Spec.Repaired
import Verif.Spec.Replay
import Verif.Spec.Rfc6979
import Verif.Spec.Rfc9421
import Verif.Spec.Rfc9530
import Verif.Spec.RfcAll
import Verif.Spec.RfcExact
import Verif.Spec.RfcInterop
import Verif.Spec.RfcLax
import Verif.Spec.RfcStructured
import Verif.Spec.Rsa
import Verif.Spec.Safe
import Verif.Spec.Service
import Verif.Spec.Sfv
import Verif.Spec.Sha
import Verif.Spec.Sign
import Verif.Spec.Size
import Verif.Spec.Standard
import Verif.Spec.Stations
import Verif.Spec.Store
import Verif.Spec.Text
import Verif.Spec.Timing
import Verif.Spec.UriText
import Verif.Spec.Value
import Verif.Spec.Verify
import Verif.Spec.Wire
