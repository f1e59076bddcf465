import Verif.Py
import Verif.Utils
import Verif.Ber
import Verif.BerLemmas
import Verif.BerRound
import Verif.Props.Subbytes
import Verif.Props.NumGen
import Verif.Props.Ber
import Verif.Asn1
import Verif.Asn1Lemmas
import Verif.DecodeLemmas
import Verif.Pdu
import Verif.Compare
import Verif.CompareMessages
import Verif.PduLemmas
import Verif.Oid
import Verif.Spec.Wire
import Verif.Props.Oid
import Verif.Props.Smi
import Verif.Props.Pdu
import Verif.Message
import Verif.MessageLemmas
import Verif.Props.Message
import Verif.Processor
import Verif.ProcessorLemmas
import Verif.Props.Processor
import Verif.Props.Matching
import Verif.Timekeeper
import Verif.Props.Timekeeper
import Verif.Dict
import Verif.Auth
import Verif.Users
import Verif.Spec.Users
import Verif.Props.Users
import Verif.Props.Keys
import Verif.Priv
import Verif.PrivLemmas
import Verif.Props.Priv
import Verif.Usm
import Verif.UsmLemmas
import Verif.Spec.Usm
import Verif.Props.Usm
import Verif.Props.Accept
import Verif.Props.Compare
import Verif.Props.Interop
import Verif.Heap
import Verif.HeapLemmas
import Verif.ManagerCommunity
import Verif.Spec.Community
import Verif.ManagerCommunityLemmas
import Verif.Props.ManagerCommunity
import Verif.ManagerV3
import Verif.RegLemmas
import Verif.ManagerV3Moves
import Verif.ManagerV3Lemmas
import Verif.Spec.ManagerV3
import Verif.Props.V3State
import Verif.Props.V3Registry
import Verif.ManagerV3Touch
import Verif.Props.V3Wait
import Verif.Props.V3Schedule
import Verif.Props.V3Places
import Verif.Props.V3Kept
import Verif.Props.V3Demo
import Verif.Props.V3Heap
import Verif.Props.V3Book
import Verif.Props.V3Secure
import Verif.Props.V3Reports
import Verif.Props.V3Witness
import Verif.Props.V3Witness2
import Verif.Transport
import Verif.Props.Transport
import Verif.Dispatcher
import Verif.Props.Dispatcher
import Verif.Props.Lifecycle
import Verif.Engine
import Verif.Props.Engine
import Verif.Props.Sent
import Verif.Props.V3Module
import Verif.Props.V3Sent
import Verif.Props.V3Witness3
import Verif.Props.V3Discovery
import Verif.Props.V3Release
import Verif.Props.V3Witness4
import Verif.Props.V3Ids
import Verif.Props.V3Errors
import Verif.Props.EngineNs
import Verif.ManagerCommunityMoves
import Verif.Props.CommunityMatch
import Verif.Props.CommunityThreads
import Verif.Props.CommunityHeap
import Verif.Props.CommunityEnd
import Verif.Props.CommunityOften
import Verif.Props.V3Often
import Verif.Api
import Verif.EncodeSize
import Verif.Props.Api
import Verif.Props.ApiV3
import Verif.Props.V3Chain
import Verif.Props.V3Deliver
import Verif.Props.V3Witness5
import Verif.Props.V3Serial
import Verif.Props.V3Witness6
import Verif.Props.V3End
import Verif.Props.V3EndWitness
import Verif.Props.CommunityLive
import Verif.Props.CommunityManagers
import Verif.Props.V3Exchange
import Verif.Props.V3Witness7
import Verif.Spec.Rfc
import Verif.Props.Rfc
import Verif.Spec.Received
import Verif.Props.Received
import Verif.Props.Honest
import Verif.Props.Peer
import Verif.Props.Octets
import Verif.Props.PeerV3
import Verif.Props.PeerWitness
import Verif.Props.SentStd
import Verif.Props.SentV3
import Verif.Props.SentWitness
import Verif.Props.OidText
import Verif.Native
import Verif.Props.Native
import Verif.GenericLoop
import Verif.Props.GenericLoop
import Verif.Repr
import Verif.Spec.PyEval
import Verif.Props.Repr
import Verif.Props.Str
import Verif.Flags
import Verif.Props.Flags
import Verif.EngineV3
import Verif.Props.V3Acts
import Verif.Props.EngineV3
import Verif.Sequences
import Verif.Props.Sequences
import Verif.UsmThreads
import Verif.Props.UsmThreads
import Verif.Props.Reserved
import Verif.Props.Strays
import Verif.Props.Failures
import Verif.Props.CompareMessages
import Verif.Props.Leftovers
import Verif.Display
import Verif.Props.Display
import Verif.MessageRepr
import Verif.Props.MessageRepr
