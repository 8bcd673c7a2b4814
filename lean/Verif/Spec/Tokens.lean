import Verif.Spec.Factories
/-! # Specification: files and nodes in made messages -/

namespace Verif.Spec

open Verif

/-- A file is described with this value for `name`. -/
def FileSays (file : Val) (name : PStr) (v : Val) : Prop :=
  ∃ items, file = .fdict .fileInfo items ∧ lookupName name items = some v

/-- Where factories put tokens, and how many files they describe in them. -/
def tokenAt : Cls → Option (List PStr × Nat)
  | .FileTransferToken => some ([], 1)
  | .ForceGetTaskResultUpload => some ([p!"file_transfer_token"], 1)
  | .ForceGetTaskResultDownload => some ([p!"file_transfer_token"], 1)
  | .AckSubtaskResultsVerify => some ([p!"file_transfer_token"], 2)
  | _ => none

/-- The fields for nodes of messages whose factories make nodes. -/
def nodesMade : List (Cls × PStr) :=
  [(.Hello, p!"node_info"), (.WantToStartTaskSession, p!"node_info"),
   (.WantToStartTaskSession, p!"super_node_info"), (.SetTaskSession, p!"node_info"),
   (.SetTaskSession, p!"super_node_info")]

/-- The parts of a node. -/
def nodeParts : List PStr :=
  [p!"key", p!"node_name", p!"prv_port", p!"pub_port", p!"p2p_prv_port", p!"p2p_pub_port", p!"prv_addr",
   p!"pub_addr", p!"prv_addresses", p!"hyperdrive_prv_port", p!"hyperdrive_pub_port", p!"port_statuses",
   p!"nat_type"]

/-- What fields hold if nothing else is asked for. -/
def usual : List (Cls × PStr × Val) :=
  [(.SubtaskResultsRejected, p!"reason", .enum .subtaskResultsRejectedReason p!"Results verification negative"),
   (.FileTransferToken, p!"token_expiration_deadline", .int 1800),
   (.SubtaskResultsSettled, p!"origin", .enum .settledOrigin p!"results_accepted_timeout"),
   (.ForceSubtaskResultsRejected, p!"reason",
     .enum .fsrRejectedReason p!"premature: still within the verification timeout"),
   (.ForcePaymentCommitted, p!"recipient_type", .enum .forcePaymentActor p!"provider"),
   (.ForcePaymentRejected, p!"reason", .enum .forcePaymentRejectedReason p!"no unsettled tasks found")]

/-- How texts in fields begin if nothing else is asked for. -/
def beginnings : List (Cls × PStr × PStr) :=
  [(.ReportComputedTask, p!"package_hash", p!"sha1:"), (.ForcePaymentCommitted, p!"provider_eth_account", p!"0x")]

end Verif.Spec
