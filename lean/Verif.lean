import Verif.Model.Util
import Verif.Model.IdGen
import Verif.Model.RawSocket
import Verif.Model.Encoding
import Verif.Model.Messages
import Verif.Model.Validator
import Verif.Props.IdGen
import Verif.Props.RawSocket
import Verif.Props.Util
import Verif.Props.Encoding
import Verif.Model.Wire
import Verif.Model.Payload
import Verif.Props.Messages
import Verif.Props.Wire
import Verif.Props.Payload
import Verif.Model.Auth
import Verif.Model.Acceptor
import Verif.Props.Auth
import Verif.Props.Acceptor
import Verif.Props.Joiner
import Verif.Props.Handshake
import Verif.Model.Session
import Verif.Spec.Session
import Verif.Props.Session
import Verif.Props.SessionConc
import Verif.Lemmas.Base
import Verif.Model.Router
import Verif.Model.Broker
import Verif.Spec.Broker
import Verif.Lemmas.Broker
import Verif.Props.Broker
import Verif.Lemmas.Router
import Verif.Model.Dealer
import Verif.Spec.Dealer
import Verif.Lemmas.Dealer
import Verif.Lemmas.DealerCalls
import Verif.Lemmas.DealerCount
import Verif.Lemmas.DealerRemove
import Verif.Lemmas.DealerHeld
import Verif.Lemmas.DealerTame
import Verif.Lemmas.DealerRobin
import Verif.Lemmas.DealerUse
import Verif.Lemmas.DealerWho
import Verif.Props.Dealer
import Verif.Props.DealerCalls
import Verif.Props.DealerRoutes
import Verif.Props.RouterConc
import Verif.Props.DealerAnswer
import Verif.Spec.Frames
import Verif.Props.Frames
import Verif.Spec.Zone
import Verif.Props.Zone
import Verif.Model.Float
import Verif.Spec.Float
import Verif.Props.Float
import Verif.Spec.System
import Verif.Lemmas.System
import Verif.Lemmas.SystemBroker
import Verif.Lemmas.SystemDealer
import Verif.Lemmas.SystemRegs
import Verif.Props.System
import Verif.Spec.Wildcard
import Verif.Props.Wildcard
import Verif.Props.Connection
import Verif.Model.Cbor
import Verif.Spec.Cbor
import Verif.Lemmas.Cbor
import Verif.Props.Cbor
import Verif.Model.MsgPack
import Verif.Spec.MsgPack
import Verif.Lemmas.MsgPack
import Verif.Props.MsgPack
import Verif.Model.Json
import Verif.Spec.Json
import Verif.Lemmas.Json
import Verif.Props.Json
import Verif.Model.Challenge
import Verif.Spec.Challenge
import Verif.Props.Challenge
import Verif.Lemmas.Text
import Verif.Spec.Login
import Verif.Props.Login
import Verif.Model.PathMatch
import Verif.Spec.PathMatch
import Verif.Lemmas.PathMatch
import Verif.Props.PathMatch
import Verif.Model.Accessors
import Verif.Spec.Accessors
import Verif.Props.Accessors
import Verif.Model.Heap
import Verif.Spec.Heap
import Verif.Props.Heap
import Verif.Spec.Net
import Verif.Lemmas.Net
import Verif.Props.Net
import Verif.Spec.Delivery
import Verif.Props.Delivery
import Verif.Props.NetDelivery
import Verif.Spec.Complete
import Verif.Props.Complete
import Verif.Props.Answered
import Verif.Props.Quiet
import Verif.Spec.Agree
import Verif.Props.Agree
import Verif.Spec.NetComplete
import Verif.Props.NetComplete
import Verif.Spec.Site
import Verif.Props.Site
import Verif.Props.AgreeRegs
import Verif.Props.NetAgree
import Verif.Spec.Results
import Verif.Props.Results
import Verif.Props.NetResults
import Verif.Spec.AsNew
import Verif.Props.AsNew
import Verif.Props.AsNewDealer
import Verif.Spec.Formats
import Verif.Lemmas.Formats
import Verif.Lemmas.FormatsCbor
import Verif.Lemmas.FormatsMsgPack
import Verif.Lemmas.FormatsMsg
import Verif.Props.Formats
import Verif.Spec.FormatsJson
import Verif.Lemmas.FormatsJson
import Verif.Props.FormatsJson
import Verif.Spec.WellFormed
import Verif.Props.WellFormed
import Verif.Props.Authenticator
import Verif.Spec.Parts
import Verif.Props.Parts
import Verif.Props.NetParts
import Verif.Props.KeyPair
import Verif.Spec.Foreign
import Verif.Lemmas.Foreign
import Verif.Props.Foreign
import Verif.Spec.Intruder
import Verif.Props.Intruder
import Verif.Spec.Interop
import Verif.Props.Interop
import Verif.Spec.Secrets
import Verif.Props.Secrets
import Verif.Spec.NetForeign
import Verif.Lemmas.NetForeign
import Verif.Props.NetForeign
import Verif.Model.Strconv
import Verif.Lemmas.Strconv
import Verif.Lemmas.Shortest
import Verif.Lemmas.Float
import Verif.Lemmas.JsonNumber
import Verif.Props.Number
import Verif.Spec.Connect
import Verif.Lemmas.Connect
import Verif.Props.Connect
import Verif.Props.Injection
import Verif.Lemmas.Chance
import Verif.Spec.Chance
import Verif.Props.Chance
import Verif.Model.Mutex
import Verif.Props.Mutex
import Verif.Props.QuietShared
import Verif.Model.Radix
import Verif.Spec.Radix
import Verif.Lemmas.Radix
import Verif.Lemmas.RadixDelete
import Verif.Props.Radix
import Verif.Props.ForeignAgree
import Verif.Props.NetForeignAgree
import Verif.Props.NetForeignResults
import Verif.Spec.Memory
import Verif.Props.Memory
import Verif.Spec.SessionSeq
import Verif.Props.SessionSeq
import Verif.Props.OneFormat
import Verif.Model.AbortText
import Verif.Props.AbortText
import Verif.Spec.Unseen
import Verif.Props.Unseen
import Verif.Props.CborPair
import Verif.Spec.Outline
import Verif.Props.Outline
import Verif.Spec.Details
import Verif.Props.Details
import Verif.Spec.Names
import Verif.Props.Names
import Verif.Conformance.Router
import Verif.Conformance.Login
import Verif.Conformance.Rest
import Verif.Model.ErrorText
import Verif.Spec.ErrorText
import Verif.Props.ErrorText
import Verif.Conformance.Texts
import Verif.Model.RouterText
import Verif.Spec.RouterText
import Verif.Props.RouterText
import Verif.Model.SessionText
import Verif.Spec.SessionText
import Verif.Props.SessionText
import Verif.Model.HandshakeText
import Verif.Spec.HandshakeText
import Verif.Props.HandshakeText
import Verif.Model.FormatText
import Verif.Spec.FormatText
import Verif.Props.FormatText
import Verif.Model.SyncMap
import Verif.Spec.SyncMap
import Verif.Props.SyncMap
import Verif.Spec.Refused
import Verif.Props.Refused
import Verif.Spec.Uris
import Verif.Props.Uris
import Verif.Spec.Requests
import Verif.Props.Requests
import Verif.Spec.People
import Verif.Props.People
import Verif.Props.Again
import Verif.Props.Leaving
import Verif.Spec.Listener
import Verif.Props.Listener
import Verif.Spec.Onlooker
import Verif.Props.Onlooker
import Verif.Model.Sha256
import Verif.Spec.Sha256
import Verif.Props.Sha256
import Verif.Conformance.Sha256
import Verif.Model.Ed25519
import Verif.Spec.Ed25519
import Verif.Props.Ed25519
import Verif.Conformance.Ed25519
