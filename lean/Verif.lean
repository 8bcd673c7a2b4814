import Verif.Model.Address
import Verif.Model.Bytes
import Verif.Model.Caches
import Verif.Model.Cbor
import Verif.Model.Classes
import Verif.Model.Construct
import Verif.Model.Containers
import Verif.Model.Eccx
import Verif.Model.Ecies
import Verif.Model.Enums
import Verif.Model.Env
import Verif.Model.Exc
import Verif.Model.Factories
import Verif.Model.Float
import Verif.Model.Frame
import Verif.Model.Header
import Verif.Model.Helpers
import Verif.Model.Hex
import Verif.Model.Ids
import Verif.Model.IpAddr
import Verif.Model.Mask
import Verif.Model.Message
import Verif.Model.MessageFactories
import Verif.Model.Misc
import Verif.Model.Objects
import Verif.Model.Openssl
import Verif.Model.PyEq
import Verif.Model.Register
import Verif.Model.Release
import Verif.Model.Session
import Verif.Model.Show
import Verif.Model.Tasks
import Verif.Model.Time
import Verif.Model.Unicode
import Verif.Model.Val
import Verif.Model.Validators
import Verif.Model.Version
import Verif.Spec.Accept
import Verif.Spec.Address
import Verif.Spec.Caches
import Verif.Spec.Catalogue
import Verif.Spec.CborItem
import Verif.Spec.CipherFaults
import Verif.Spec.Container
import Verif.Spec.Data
import Verif.Spec.Depth
import Verif.Spec.DrawRanges
import Verif.Spec.Ecies
import Verif.Spec.Encoded
import Verif.Spec.Equality
import Verif.Spec.Errors
import Verif.Spec.Ethsig
import Verif.Spec.Exchange
import Verif.Spec.Factories
import Verif.Spec.FactoryArgs
import Verif.Spec.FactoryMethods
import Verif.Spec.Faults
import Verif.Spec.Float
import Verif.Spec.Foreign
import Verif.Spec.Frame
import Verif.Spec.Hex
import Verif.Spec.IpAddr
import Verif.Spec.KeyTrace
import Verif.Spec.Log2
import Verif.Spec.Mask
import Verif.Spec.Meaning
import Verif.Spec.Names
import Verif.Spec.Notes
import Verif.Spec.Objects
import Verif.Spec.Openssl
import Verif.Spec.Origin
import Verif.Spec.Owners
import Verif.Spec.Ownership
import Verif.Spec.Pairs
import Verif.Spec.Promissory
import Verif.Spec.Protocol
import Verif.Spec.Refusal
import Verif.Spec.Relay
import Verif.Spec.Release
import Verif.Spec.RoundTrip
import Verif.Spec.Schema
import Verif.Spec.Seconds
import Verif.Spec.Sending
import Verif.Spec.Slots
import Verif.Spec.Tasks
import Verif.Spec.Token
import Verif.Spec.Tokens
import Verif.Spec.Truth
import Verif.Spec.Undated
import Verif.Spec.Unicode
import Verif.Spec.Unsent
import Verif.Spec.Uuid
import Verif.Spec.Verification
import Verif.Spec.Version
import Verif.Spec.Volume
import Verif.Spec.Whole
import Verif.Spec.Writable
import Verif.Spec.Writes
import Verif.Lemmas.Accept
import Verif.Lemmas.AcceptSlots
import Verif.Lemmas.Address
import Verif.Lemmas.Arrived
import Verif.Lemmas.ArrivedItems
import Verif.Lemmas.Assigned
import Verif.Lemmas.Attrs
import Verif.Lemmas.Bytes
import Verif.Lemmas.Carried
import Verif.Lemmas.Cbor
import Verif.Lemmas.CborFuel
import Verif.Lemmas.CborItem
import Verif.Lemmas.Clone
import Verif.Lemmas.CloneSlots
import Verif.Lemmas.Construct
import Verif.Lemmas.Cont
import Verif.Lemmas.ContRoundTrip
import Verif.Lemmas.Decoded
import Verif.Lemmas.Depth
import Verif.Lemmas.Encoded
import Verif.Lemmas.Encodes
import Verif.Lemmas.Errors
import Verif.Lemmas.FDict
import Verif.Lemmas.FaultRules
import Verif.Lemmas.Faults
import Verif.Lemmas.Float
import Verif.Lemmas.FloatKey
import Verif.Lemmas.Forward
import Verif.Lemmas.Frame
import Verif.Lemmas.Halfway
import Verif.Lemmas.Hex
import Verif.Lemmas.IpAddr
import Verif.Lemmas.Items
import Verif.Lemmas.Keyed
import Verif.Lemmas.Load
import Verif.Lemmas.LoadSteps
import Verif.Lemmas.Log2
import Verif.Lemmas.Made
import Verif.Lemmas.MadeCalls
import Verif.Lemmas.MadeChecks
import Verif.Lemmas.MadeParts
import Verif.Lemmas.MadeTasks
import Verif.Lemmas.MadeWritable
import Verif.Lemmas.Meaning
import Verif.Lemmas.MeaningSlots
import Verif.Lemmas.MessageFactories
import Verif.Lemmas.NoteTexts
import Verif.Lemmas.Notes
import Verif.Lemmas.Objects
import Verif.Lemmas.Ownership
import Verif.Lemmas.Plain
import Verif.Lemmas.PyEq
import Verif.Lemmas.Raw
import Verif.Lemmas.Refusal
import Verif.Lemmas.Schema
import Verif.Lemmas.Seconds
import Verif.Lemmas.Serialize
import Verif.Lemmas.Signing
import Verif.Lemmas.Slots
import Verif.Lemmas.TaskFactory
import Verif.Lemmas.Toy
import Verif.Lemmas.ToyMake
import Verif.Lemmas.TrueDiv
import Verif.Lemmas.Truth
import Verif.Lemmas.Unicode
import Verif.Lemmas.Unsent
import Verif.Lemmas.UnsentSlots
import Verif.Lemmas.Utf8
import Verif.Lemmas.Uuid
import Verif.Lemmas.Verification
import Verif.Lemmas.Version
import Verif.Lemmas.Volume
import Verif.Lemmas.Widen
import Verif.Lemmas.Wire
import Verif.Lemmas.WireItems
import Verif.Lemmas.WireKeyed
import Verif.Lemmas.WireSlots
import Verif.Lemmas.Writable
import Verif.Lemmas.Writes
import Verif.Lemmas.WritesSlots
import Verif.Props.Accept
import Verif.Props.Address
import Verif.Props.Auth
import Verif.Props.Caches
import Verif.Props.Catalogue
import Verif.Props.Cbor
import Verif.Props.CborGrammar
import Verif.Props.CipherFaults
import Verif.Props.Clone
import Verif.Props.Comparable
import Verif.Props.Construct
import Verif.Props.Consults
import Verif.Props.Containers
import Verif.Props.CopySign
import Verif.Props.Crypto
import Verif.Props.Delays
import Verif.Props.Depth
import Verif.Props.Dump
import Verif.Props.Eccx
import Verif.Props.Ecies
import Verif.Props.Equality
import Verif.Props.Errors
import Verif.Props.Ethsig
import Verif.Props.Exchange
import Verif.Props.Factories
import Verif.Props.FactoryMethods
import Verif.Props.Faults
import Verif.Props.Foreign
import Verif.Props.Forward
import Verif.Props.FrameSize
import Verif.Props.FromPairs
import Verif.Props.Gate
import Verif.Props.Header
import Verif.Props.Helpers
import Verif.Props.Hex
import Verif.Props.Ids
import Verif.Props.IpAddr
import Verif.Props.KeyTrace
import Verif.Props.Made
import Verif.Props.MadeLoads
import Verif.Props.MadeTokens
import Verif.Props.Makes
import Verif.Props.Mask
import Verif.Props.MaskTask
import Verif.Props.Meaning
import Verif.Props.MessageFactories
import Verif.Props.Node
import Verif.Props.NodeEq
import Verif.Props.Notes
import Verif.Props.Objections
import Verif.Props.Objects
import Verif.Props.Openssl
import Verif.Props.Origin
import Verif.Props.OwnerConsults
import Verif.Props.Owners
import Verif.Props.Ownership
import Verif.Props.Password
import Verif.Props.PastDeadline
import Verif.Props.Promissory
import Verif.Props.Readdress
import Verif.Props.Refusal
import Verif.Props.Register
import Verif.Props.Relay
import Verif.Props.Release
import Verif.Props.Reload
import Verif.Props.Replay
import Verif.Props.Retry
import Verif.Props.RoundTrip
import Verif.Props.Schema
import Verif.Props.Seconds
import Verif.Props.Sends
import Verif.Props.Session
import Verif.Props.SharedCopy
import Verif.Props.Show
import Verif.Props.Slots
import Verif.Props.TaskHeader
import Verif.Props.Tokens
import Verif.Props.TypeBinding
import Verif.Props.Unsent
import Verif.Props.Validators
import Verif.Props.Validity
import Verif.Props.Verification
import Verif.Props.VerificationLoads
import Verif.Props.Version
import Verif.Props.Volume
import Verif.Props.Whole
import Verif.Props.Writes
import Verif.Conformance.ConcentMessages
import Verif.Conformance.Crypto
import Verif.Conformance.Messages
import Verif.Conformance.PromissoryNotes
import Verif.Conformance.Structures
import Verif.Conformance.TaskMessages
import Verif.Conformance.Units
