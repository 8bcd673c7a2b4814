{"id": "C01", "title": "Wire header round trip", "statement": "The 11-byte frame header written for a message (big-endian type, timestamp, encrypted flag) is decoded back to exactly the same type, timestamp and flag; a byte string of any other length is refused with HeaderError and no well-formed header is ever refused by the decoder itself.", "quantifier": "every type < 2^16, every timestamp < 2^64, both flags; every byte string", "why_tests_cant": "2^81 headers and all byte strings; tests use a handful of values", "anchors": ["golem_messages/message/base.py: Message.serialize_header, Message.unpack_header"]}
{"id": "C02", "title": "dump/load round trip", "statement": "For every registered message class, a message whose fields hold values of the kinds the class declares, once dumped (signed or not, encrypted or not) and loaded by the intended recipient, comes back as a message of the same class with the same timestamp, signature and field values, at every depth of nesting - unless the class's own semantic validation refuses it.", "quantifier": "every registered class, every field valuation of the declared kinds, every nesting, every key pair, every recipient, every clock reading inside the freshness window", "why_tests_cant": "field values are unbounded nested data; message trees are unbounded combinations", "anchors": ["golem_messages/message/base.py: Message.serialize, Message.deserialize, Message.slots, Message.load_slots", "golem_messages/shortcuts.py: dump, load"]}
{"id": "C03", "title": "Signatures survive nesting", "statement": "If a signed message is put in a slot of another message and travels through dump and load, the nested message's signed digest is unchanged, so a signature that verified before still verifies after, at any nesting depth.", "quantifier": "every message tree, every class with message slots, any depth", "why_tests_cant": "depends on re-serialisation giving the same bytes for every possible content", "anchors": ["golem_messages/message/base.py: Message.get_short_hash, Message.serialize_message_single, Message.deserialize_message_single"]}
{"id": "C04", "title": "A signed dump verifies for its signer", "statement": "A message of a signed class dumped with a private key is accepted by load when the matching public key is given, and refused with InvalidSignature when any other well-formed public key is given.", "quantifier": "every signed class, every message, every key pair", "why_tests_cant": "all messages and keys", "anchors": ["golem_messages/message/base.py: Message.serialize, Message.sign_message, Message.verify_signature", "golem_messages/cryptography.py: ecdsa_sign, ecdsa_verify"]}
{"id": "C05", "title": "load with a sender key authenticates", "statement": "Whenever load with a sender public key returns a message of a signed class, the 65 signature bytes of the frame recover to exactly that key over the digest of the received type, timestamp and (decrypted) payload, plus the version trailer for Hello.", "quantifier": "every byte string an attacker can submit, every key", "why_tests_cant": "adversarial input space is infinite", "anchors": ["golem_messages/message/base.py: Message.deserialize_with_header, Message._verify_signature", "golem_messages/cryptography.py: ecdsa_verify"]}
{"id": "C06", "title": "The signed digest binds type, timestamp and payload", "statement": "Two frames whose signed digests are computed from the same hash input have the same type, timestamp and payload; the encrypted flag is not part of it, so encrypting a message for another recipient does not change its signature.", "quantifier": "every pair of (type, timestamp, payload), every message", "why_tests_cant": "injectivity is a statement about all pairs", "anchors": ["golem_messages/message/base.py: Message.get_short_hash, Hello.get_short_hash"]}
{"id": "C07", "title": "Existing signatures are never overwritten", "statement": "dump never replaces a signature that is already on the message: with a private key it raises SignatureAlreadyExists and leaves the message untouched, without one it emits the existing signature.", "quantifier": "every message with a signature, every history of dumps", "why_tests_cant": "histories of calls on a mutable object", "anchors": ["golem_messages/message/base.py: Message.serialize"]}
{"id": "C08", "title": "Unsigned traffic", "statement": "Dumping without a private key, or dumping a class that is not signed, emits 65 zero bytes as signature; load of an unsigned class gives the same result whatever the signature bytes and sender key are.", "quantifier": "every message, every unsigned class, every signature and key", "why_tests_cant": "all byte strings", "anchors": ["golem_messages/message/base.py: Message.serialize, Message._fake_sign, Message.deserialize_with_header", "golem_messages/message/p2p.py: SIGN"]}
{"id": "C09", "title": "Short frames are refused", "statement": "Every input of at most 76 bytes (and the empty/None input) is refused by load with MessageError before anything is parsed.", "quantifier": "every byte string of length <= 76, every key and clock", "why_tests_cant": "2^608 inputs", "anchors": ["golem_messages/message/base.py: Message.deserialize"]}
{"id": "C10", "title": "Header gate before payload work", "statement": "load only hands the payload to decryption or parsing if the header timestamp lies strictly between 2010-01-01 and 3010-01-01 and the type is registered; otherwise it raises HeaderError and the decryption function has not been called.", "quantifier": "every byte string", "why_tests_cant": "all inputs, order of effects", "anchors": ["golem_messages/message/base.py: Message.deserialize_header, Message.deserialize"]}
{"id": "C11", "title": "Freshness window", "statement": "With check_time, a frame is past the time gate exactly if its timestamp is at most 10 minutes behind and at most 5 minutes ahead of the clock; older gives MessageTooOldError, newer gives MessageFromFutureError, and without check_time the clock has no influence.", "quantifier": "every timestamp, every clock reading (microseconds)", "why_tests_cant": "boundaries over all pairs of times", "anchors": ["golem_messages/message/base.py: verify_time, Message.deserialize", "golem_messages/settings.py"]}
{"id": "C12", "title": "load fails only with MessageError", "statement": "Whatever bytes are given, load either returns a message or raises MessageError (or a subclass).", "quantifier": "every byte string, every class", "why_tests_cant": "adversarial input space", "anchors": ["golem_messages/message/base.py: Message.deserialize", "golem_messages/exceptions.py", "golem_messages/message/tasks.py: TaskMessage.deserialize_with_header"]}
{"id": "C13", "title": "Loaded fields are exactly the declared ones", "statement": "A loaded message has a value for every declared field and nothing else: fields absent from the payload are None (before class defaults), unknown payload keys and underscore names have no influence, duplicate keys resolve to the last one.", "quantifier": "every payload", "why_tests_cant": "arbitrary payload data", "anchors": ["golem_messages/message/base.py: Message.load_slots, Message.valid_slot"]}
{"id": "C14", "title": "Typed message slots", "statement": "A message slot can only be dumped if it holds an instance of the declared class (or a list of them, or None where allowed), otherwise FieldError names the slot; after a load a message slot that was present in the payload holds instances of the declared class only, None only where allowed, a list only where declared; a payload whose other fields can be read but whose message slots do not hold what is declared is refused with FieldError.", "quantifier": "every class with message slots, every value put in a slot, every payload", "why_tests_cant": "arbitrary values and payloads", "anchors": ["golem_messages/message/base.py: Message.serialize_message, Message.deserialize_message, Message.deserialize_message_single, MessageSlotDefinition"]}
{"id": "C15", "title": "Enum slots", "statement": "After load an enum slot holds None or a member of the declared enumeration; any other payload value is refused with FieldError naming the slot; dump writes the member's value and loading it gives the same member.", "quantifier": "every class with enum slots, every payload value", "why_tests_cant": "arbitrary payload data", "anchors": ["golem_messages/message/base.py: Message.deserialize_slot, AbstractReasonMessage.ENUM_SLOTS"]}
{"id": "C16", "title": "Everything that can be dumped can be loaded: list slots", "statement": "A message with a list slot that dumps successfully also loads, including the empty list.", "quantifier": "every list of messages in a list slot", "why_tests_cant": "every length incl. zero", "anchors": ["golem_messages/message/base.py: Message.serialize_message, Message.deserialize_message", "golem_messages/message/p2p.py: RemoveTaskContainer", "golem_messages/message/concents.py: ForcePayment"]}
{"id": "C17", "title": "No field is lost on the wire", "statement": "Every declared field of every registered class that is dumped with a plain value is restored with that value by load.", "quantifier": "every class, every field, every plain value", "why_tests_cant": "all classes x all values", "anchors": ["golem_messages/message/base.py: Message.load_slots", "golem_messages/message/tasks.py: StartSessionResponse.__init__"]}
{"id": "C18", "title": "A message accepted under a class was signed as that class", "statement": "If a message reachable in a loaded message tree carries a signature that verifies, the signed digest was computed for the type number of the class the receiver sees.", "quantifier": "every message tree, every slot", "why_tests_cant": "type confusion between classes with equal field lists", "anchors": ["golem_messages/message/base.py: Message.deserialize_message_single, Message.get_short_hash"]}
{"id": "C19", "title": "Message equality", "statement": "Equality of messages is an equivalence, ignores whether the message was transported encrypted, and distinguishes messages differing in class, type, timestamp, signature or dumped content.", "quantifier": "every pair/triple of messages", "why_tests_cant": "relations over all messages", "anchors": ["golem_messages/message/base.py: Message.__eq__, Hello.__eq__"]}
{"id": "C20", "title": "Encryption flag is truthful", "statement": "The emitted frame has the encrypted flag set exactly if a recipient key was given and the class may be encrypted; then the payload after the signature is the ciphertext, otherwise the plain payload; Hello and Disconnect are never encrypted.", "quantifier": "every message, every key", "why_tests_cant": "all messages", "anchors": ["golem_messages/message/base.py: Message.serialize, Message.encrypted", "golem_messages/shortcuts.py: dump"]}
{"id": "C21", "title": "Hello carries and signs its version", "statement": "A Hello frame ends in a 32-byte version field (length, characters with a question mark for each that is not ASCII, zeros); the version read back is the one written for versions of at most 31 ASCII characters, it is covered by the signature, and a payload field cannot set it; frames whose version field is unreadable or incompatible are refused with VersionMismatchError before the payload is parsed.", "quantifier": "every Hello, every version string, every byte string", "why_tests_cant": "all versions and payloads", "anchors": ["golem_messages/message/base.py: Hello.serialize, Hello.deserialize_with_header, Hello.get_short_hash, Hello.__init__"]}
{"id": "C22", "title": "Version compatibility", "statement": "verify_version accepts a peer version exactly if it has our major and minor number (and is not a pre-release of the .0 release), whatever patch, pre-release or build suffix, its numbers written with decimal digits of any script; everything else, including unparsable text, raises VersionMismatchError.", "quantifier": "every pair of our/their versions, every string", "why_tests_cant": "all strings", "anchors": ["golem_messages/message/base.py: verify_version"]}
{"id": "C23", "title": "Message register", "statement": "For every sequence of registrations: a type number resolves to the first class registered under it, registering a taken number raises RuntimeError and changes nothing, and for classes registered once get_type is inverse to lookup.", "quantifier": "every sequence of registrations", "why_tests_cant": "histories", "anchors": ["golem_messages/register.py: MessageRegister"]}
{"id": "C24", "title": "ECIES round trip", "statement": "decrypt with the recipient's private key returns exactly the data encrypted to their public key, and the ciphertext is exactly 113 bytes longer, for every data and associated data.", "quantifier": "every data, key pair, ephemeral key and IV", "why_tests_cant": "all data", "anchors": ["golem_messages/cryptography.py: ECIES.encrypt, ECIES.decrypt, ECIESKeyManager"]}
{"id": "C25", "title": "ECIES integrity", "statement": "decrypt returns data only if the ciphertext starts with 0x04 and its last 32 bytes are the MAC of everything between the ephemeral key and the tag (plus associated data); in every other case it raises.", "quantifier": "every byte string", "why_tests_cant": "adversarial ciphertexts", "anchors": ["golem_messages/cryptography.py: ECIES.decrypt"]}
{"id": "C26", "title": "Ephemeral keys expire", "statement": "An ephemeral key is not used for encrypting after the key manager's timeout has passed since it was created.", "quantifier": "every schedule of encryptions over time", "why_tests_cant": "schedules", "anchors": ["golem_messages/cryptography.py: ECIESKeyManager.get_ephem_key"]}
{"id": "C27", "title": "Key derivation output length", "statement": "The key derivation function returns exactly the requested number of bytes.", "quantifier": "every requested length and key material", "why_tests_cant": "all lengths", "anchors": ["golem_messages/cryptography.py: ECIESKeyManager._ckdf"]}
{"id": "C28", "title": "Signature primitive decision", "statement": "ecdsa_verify returns True exactly if the key is 64 bytes and the signature recovers to that key over sha3 of the message; other key lengths raise InvalidKeys and everything else InvalidSignature; it never returns False.", "quantifier": "every key, signature, message", "why_tests_cant": "all inputs", "anchors": ["golem_messages/cryptography.py: ecdsa_verify, verify_pubkey"]}
{"id": "C29", "title": "Ownership chain soundness", "statement": "If verify_owners succeeds then the message and every task message reachable through its slots is signed, over its own content, by one of the parties expected for its class, as named by the TaskToCompute belonging to that message, and each contained TaskToCompute's task header is signed by the requestor.", "quantifier": "every message tree, every depth, every key", "why_tests_cant": "recursion over unbounded combinations of attacker-supplied trees", "anchors": ["golem_messages/message/tasks.py: TaskMessage.validate_ownership, TaskMessage.validate_ownership_chain, TaskToCompute.validate_ownership"]}
{"id": "C30", "title": "Ownership chain completeness", "statement": "A message tree in which every task message is signed by an expected party and the task headers by the requestor passes verify_owners with the matching keys; a single message in the tree not signed by an expected party makes it raise InvalidSignature.", "quantifier": "every message tree", "why_tests_cant": "all trees", "anchors": ["golem_messages/message/tasks.py: TaskMessage.verify_owners"]}
{"id": "C31", "title": "Role keys", "statement": "verify_owners with a provider (requestor) key succeeds only if it equals the provider (requestor) key recorded in the chain's TaskToCompute, otherwise it raises OwnershipMismatch before any signature is checked.", "quantifier": "every message tree and key", "why_tests_cant": "all keys", "anchors": ["golem_messages/message/tasks.py: TaskMessage.verify_owners"]}
{"id": "C32", "title": "Task accessors", "statement": "task_id, subtask_id, provider_id, requestor_id and task_to_compute of any task message are those of the first TaskToCompute found along its declared provider slots, at any depth.", "quantifier": "every task message class and tree", "why_tests_cant": "all trees", "anchors": ["golem_messages/message/tasks.py: TaskMessage._get_task_value, TaskToCompute.task_id"]}
{"id": "C33", "title": "The provider's offer in the chain is authenticated", "statement": "verify_owners success implies the WantToComputeTask embedded in the chain is signed by the provider it names.", "quantifier": "every message tree", "why_tests_cant": "all trees", "anchors": ["golem_messages/message/tasks.py: TaskMessage.validate_ownership_chain, WantToComputeTask"]}
{"id": "C34", "title": "Payment timestamp window", "statement": "A SubtaskResultsAccepted loads exactly if its payment timestamp is not after the message timestamp and not more than 15 minutes before it, otherwise ValidationError.", "quantifier": "every pair of timestamps", "why_tests_cant": "boundaries over all integers", "anchors": ["golem_messages/message/tasks.py: SubtaskResultsAccepted.is_valid", "golem_messages/settings.py"]}
{"id": "C35", "title": "Rejection reasons", "statement": "SubtaskResultsRejected is valid exactly if it has a reason, any attached ForceGetTaskResultFailed concerns the same task and subtask, and ForcedResourcesFailure has such an attachment; for a requestor the reason must also be one allowed for the Concent mode of the task.", "quantifier": "every message", "why_tests_cant": "all combinations of reason, attachment and ids", "anchors": ["golem_messages/message/tasks.py: SubtaskResultsRejected.is_valid, is_valid_for_requestor"]}
{"id": "C36", "title": "Verdict consistency", "statement": "A VerdictReportComputedTask loads only if the acknowledgement and the forced report concern an equal TaskToCompute.", "quantifier": "every message", "why_tests_cant": "all trees", "anchors": ["golem_messages/message/concents.py: VerdictReportComputedTask.is_valid"]}
{"id": "C37", "title": "A loaded TaskToCompute is internally authenticated", "statement": "Every TaskToCompute obtained from load has an ethereum signature over its WantToComputeTask by the requestor's ethereum key and task and subtask ids generated from the requestor's node id.", "quantifier": "every byte string", "why_tests_cant": "all inputs; also nested occurrences", "anchors": ["golem_messages/message/tasks.py: TaskToCompute.deserialize_with_header, verify_ethsig, validate_taskid"]}
{"id": "C38", "title": "Numeric fields of offers and tasks", "statement": "Fields present in the payload: cpu_usage of a WantToComputeTask is None or a non-negative integer, num_subtasks a positive integer, price and size of a TaskToCompute integers; anything else is FieldError naming the field; absent num_subtasks defaults to 1; concent_enabled is a boolean, namely the truth value of what was sent, and false if nothing was.", "quantifier": "every payload", "why_tests_cant": "arbitrary payload data", "anchors": ["golem_messages/message/tasks.py: WantToComputeTask.deserialize_slot, TaskToCompute.deserialize_slot, ConcentEnabled"]}
{"id": "C39", "title": "Task header signature", "statement": "sign followed by verify with the matching key succeeds; verify without signature raises InvalidSignature; the signed hash covers every field except the signature, and a header survives to_dict and reconstruction with the same hash.", "quantifier": "every task header, every key", "why_tests_cant": "all field values", "anchors": ["golem_messages/datastructures/tasks.py: TaskHeader"]}
{"id": "C40", "title": "Container discipline", "statement": "Constructing a container from keyword values succeeds only if all required fields are present, every present value passes its field's validators, and there is no unknown field; the result has every field (defaults or None for absent ones) and converting it to a dict and back gives an equal container.", "quantifier": "every container class, every keyword set", "why_tests_cant": "arbitrary values", "anchors": ["golem_messages/datastructures/__init__.py: Container", "golem_messages/datastructures/p2p.py: Node", "golem_messages/datastructures/stats.py"]}
{"id": "C41", "title": "Frozen and validating dictionaries", "statement": "A frozen dictionary always has exactly its declared keys, and a validating one only holds values accepted by the validators, after construction from any data and any sequence of item assignments. Made from a sequence of pairs it holds for each declared key the value given last, or the declared default; otherwise the first element that is not a pair of a declared key and an accepted value decides the error, or else the first key of a peer that is not given.", "quantifier": "every initial data, every sequence of operations", "why_tests_cant": "histories of a mutable object", "anchors": ["golem_messages/datastructures/__init__.py: SetItemDict, FrozenDict, ValidatingDict", "golem_messages/message/tasks.py: ComputeTaskDef", "golem_messages/datastructures/p2p.py: Peer"]}
{"id": "C42", "title": "Node public info", "statement": "update_public_info never changes a public field that is set, fills unset ones with the private counterpart, touches no other field and is idempotent; a node is a super node exactly if both addresses are set and equal.", "quantifier": "every node", "why_tests_cant": "all field combinations", "anchors": ["golem_messages/datastructures/p2p.py: Node.update_public_info, Node.is_super_node"]}
{"id": "C43", "title": "Validator acceptance sets", "statement": "Each validator accepts exactly its documented set (varchar: text of bounded length; integer: integers but not booleans; positive integer: >= 1; boolean; dict; port: 1..65535; version: parsable versions) and raises FieldError naming the field for everything else.", "quantifier": "every value of every type", "why_tests_cant": "all values", "anchors": ["golem_messages/validators.py"]}
{"id": "C44", "title": "Seeded ids", "statement": "An id generated from a seed verifies against that seed and any seed with the same first six bytes and against no other; an id derived from an id verifies against the same seeds; any text verifies against exactly the seeds whose first six bytes denote the node of the UUID it denotes under the grammar of UUID texts, and text that denotes no UUID verifies against nothing.", "quantifier": "every seed, every text, every time and clock sequence", "why_tests_cant": "all seeds", "anchors": ["golem_messages/idgenerator.py"]}
{"id": "C45", "title": "UUID to bytes32", "statement": "Converting a UUID to 32 bytes and back gives the same UUID, the result has 32 bytes, and distinct UUIDs give distinct results.", "quantifier": "every UUID", "why_tests_cant": "2^128 values", "anchors": ["golem_messages/utils.py: uuid_to_bytes32, bytes32_to_uuid"]}
{"id": "C46", "title": "Hex helpers", "statement": "decode_hex inverts encode_hex for all bytes; decode_hex accepts exactly even-length hexadecimal text (either case); encode_hex strips a 0x prefix.", "quantifier": "every byte string / text", "why_tests_cant": "all inputs", "anchors": ["golem_messages/utils.py: encode_hex, decode_hex"]}
{"id": "C47", "title": "Promissory note message is unambiguous", "statement": "Two promissory notes with well-formed addresses, uint256 amounts and UUID subtask ids that produce the same message to sign agree in contract, payer, payee, amount and subtask; amounts outside 0..2^256-1 are refused.", "quantifier": "every pair of notes", "why_tests_cant": "injectivity over all pairs", "anchors": ["golem_messages/datastructures/promissory.py: PromissoryNote.hexmsg"]}
{"id": "C48", "title": "Promissory note signing", "statement": "A note signed by the payer's key is valid, a note with no signature is not, a signature is valid only if it recovers to the payer's address, a signature of wrong arity raises TypeError; a TaskToCompute's notes are valid only for the price, subtask, parties and contract they were signed for (barring hash collision). Notes that were never signed are reported as not valid, not as an error, whatever the provider's address, price and id are.", "quantifier": "every note, key, signature", "why_tests_cant": "all notes and signatures", "anchors": ["golem_messages/datastructures/promissory.py: PromissoryNote.sign, sig_valid, PromissorySlotMixin", "golem_messages/message/tasks.py: TaskToCompute.verify_all_promissory_notes", "golem_messages/message/concents.py: SubtaskResultsVerify"]}
{"id": "C49", "title": "Mask bit counts", "statement": "generate(n) has min(n,256) bits; increase(n) adds exactly min(n, free) bits keeping all existing ones; decrease(n) removes exactly min(n, set) bits adding none; negative n raises ValueError and leaves the mask unchanged.", "quantifier": "every mask, every n, every random outcome", "why_tests_cant": "all masks and all random choices", "anchors": ["golem_messages/datastructures/masking.py: Mask.increase, decrease, generate"]}
{"id": "C50", "title": "Mask matching is monotone", "statement": "A node that matches a mask still matches after decrease, and a node that does not match does not match after increase; the empty mask matches everyone; a mask's set bits and bytes determine each other.", "quantifier": "every mask, address, random outcome", "why_tests_cant": "all masks", "anchors": ["golem_messages/datastructures/masking.py: Mask.matches, to_bits, from_bits"]}
{"id": "C51", "title": "Mask for a task", "statement": "get_mask_for_task gives the smallest number of bits b with desired * 2^b >= potential (capped at 256), no bits if there are no potential workers, and refuses a desired count of zero or less.", "quantifier": "every pair of worker counts", "why_tests_cant": "all integers", "anchors": ["golem_messages/datastructures/masking.py: Mask.get_mask_for_task"]}
{"id": "C52", "title": "Time and deposit helpers", "statement": "maximum_download_time is one minute plus the least whole number of seconds in which the size fits at the given rate, is monotone in size and antitone in rate; subtask_verification_time is 16 minutes plus three download times plus half the subtask timeout; deposits are 2x/4x and 1x/4x the price.", "quantifier": "every size, rate, price, timestamp", "why_tests_cant": "all integers", "anchors": ["golem_messages/helpers.py", "golem_messages/constants.py"]}
{"id": "C53", "title": "copy_and_sign", "statement": "copy_and_sign leaves the original message unchanged, returns an already signed message unchanged, and otherwise returns a message equal in everything but its signature, which verifies for the signer.", "quantifier": "every message and key", "why_tests_cant": "all messages", "anchors": ["golem_messages/utils.py: copy_and_sign"]}
{"id": "C54", "title": "File transfer tokens", "statement": "After load every entry of a token's files has exactly the four file fields with a valid category (results when absent); get_file_info returns the first entry of a category or None; an entry with an unknown field or category is refused.", "quantifier": "every payload", "why_tests_cant": "arbitrary payload data", "anchors": ["golem_messages/message/concents.py: FileTransferToken.deserialize_slot, FileInfo, get_file_info"]}
{"id": "C55", "title": "Payload codec round trip", "statement": "Every value built from None, booleans, integers of any size, floats, text, bytes, lists, tuples and dictionaries is restored by the payload codec (tuples as lists), and decoding consumes exactly the encoded bytes; values outside this universe are refused with SerializationError.", "quantifier": "every such value, any size and depth", "why_tests_cant": "unbounded recursive data", "anchors": ["golem_messages/serializer.py: dumps, loads"]}
{"id": "C56", "title": "Message tree depth is bounded by class declarations", "statement": "Loading constructs nested messages only to the depth allowed by the class declarations, whatever the payload; the chain of declared message slots is well founded.", "quantifier": "every payload", "why_tests_cant": "adversarial nesting depth", "anchors": ["golem_messages/message/base.py: Message.deserialize_message_single", "golem_messages/message/tasks.py: MSG_SLOTS", "golem_messages/message/concents.py: MSG_SLOTS"]}
{"id": "C57", "title": "Received messages survive being passed on", "statement": "A message that was loaded and is dumped again, for any recipient, is either refused or loaded by the next receiver as the same message: class, timestamp, signature and every field at every depth are those of the first load. It is not refused - dump succeeds without a signing key, and so does the next load - if no mandatory field was missing from the first frame and it held no value tagged as a point in time.", "quantifier": "every frame, every message loaded from it, every recipient, every clock", "why_tests_cant": "tests forward a few well-formed messages; the claim is about all frames, including hostile ones with missing, extra or oddly typed fields", "anchors": ["golem_messages/shortcuts.py: dump, load", "golem_messages/message/base.py: Message.load_slots, Message.slots, Message.deserialize_slot, Message.serialize_slot", "golem_messages/message/tasks.py: deserialize_slot overrides", "golem_messages/datastructures/__init__.py: Container, FrozenDict, ValidatingDict"]}
{"id": "C58", "title": "Accepted signatures can be checked again", "statement": "A message accepted by load with the sender's public key passes verify_signature with that key afterwards, so the receiver can pass it on as evidence.", "quantifier": "every frame, every signed class", "why_tests_cant": "load checks the received bytes while verify_signature encodes the fields again; they differ only for payloads no test sends", "anchors": ["golem_messages/message/base.py: Message.deserialize_with_header, Message.verify_signature, Message.get_short_hash"]}
{"id": "C59", "title": "Constructors keep what they are given", "statement": "A message built from keyword arguments that name fields of its class holds exactly these values, None in the other fields, with class defaults filled in; its header has the type of the class, the current time and no encryption flag; a Hello carries the library's own version. Construction cannot fail.", "quantifier": "every message class, every set of fields, every value", "why_tests_cant": "63 classes times arbitrary subsets of fields and arbitrary values, with class-specific constructors between", "anchors": ["golem_messages/message/base.py: Message.__init__, Hello.__init__", "golem_messages/message/tasks.py: ConcentEnabled.__init__, WantToComputeTask.__init__, TaskFailure.__init__, StartSessionResponse.__init__", "golem_messages/message/p2p.py: Peers.__init__, Tasks.__init__, ResourcePeers.__init__, Gossip.__init__"]}
{"id": "C60", "title": "Keyword arguments only fill gaps", "statement": "When a message is built from slots and keyword arguments, a field that the slots give a value keeps it; keyword arguments reach only fields the slots leave empty. Received messages are built by this constructor.", "quantifier": "every class, all slots, all keyword arguments", "why_tests_cant": "interaction of two unbounded inputs and of load order", "anchors": ["golem_messages/message/base.py: Message.__init__, Message.load_slots", "golem_messages/message/tasks.py: StartSessionResponse.__init__"]}
{"id": "C61", "title": "Unknown keyword arguments are refused", "statement": "A keyword argument that does not name a field is refused with AttributeError; a constructed message never stores anything but its declared fields.", "quantifier": "every class, every name", "why_tests_cant": "tests try one made-up name", "anchors": ["golem_messages/message/base.py: Message.__init__"]}
{"id": "C62", "title": "Fresh messages arrive", "statement": "A message built from values of the declared kinds, dumped and received within the time limits by a node with the same library version is accepted and equal to what was sent, unless the validation of its class refuses it.", "quantifier": "every class, all values of the declared kinds, every clock within the limits", "why_tests_cant": "composition of constructor, serialisation, version trailer, time check and loading over all classes and values", "anchors": ["golem_messages/message/base.py: Message.__init__, Hello, verify_time, verify_version", "golem_messages/shortcuts.py: dump, load"]}
{"id": "C63", "title": "Generated ids are canonical and distinct", "statement": "Every id made by generate_id is the canonical lower-case text of a version 1 UUID. Two ids are equal exactly if their time stamps (60 bits), clock sequences (14 bits) and seed numbers (48 bits) agree. All ids one process generates, from seeds, hexadecimal seeds or other ids, are pairwise different even if the clock stands still or goes back.", "quantifier": "all time stamps, clock sequences, seeds; all sequences of calls of any length with clock readings that leave room below 2^60", "why_tests_cant": "a lost or misplaced bit in the time stamp only makes ids collide after a long time or for particular clock readings", "anchors": ["golem_messages/idgenerator.py:9-29", "golem_messages/idgenerator.py:45-46"]}
{"id": "C64", "title": "Containers are built exactly from conforming data", "statement": "A node, task header or statistics container is built from decoded data exactly if the data conforms to its schema: only declared fields, all required ones, and every value in the documented set of its field (texts of limited length, integers, non-negative timeouts, positive subtask counts, ports, versions, nested records), with None allowed for optional fields. In every loaded message, at every depth, the fields for nodes, headers and statistics hold objects that satisfy the schema.", "quantifier": "all seven container classes, all decoded values of any size, all received frames and nesting depths", "why_tests_cant": "each field has its own acceptance set with boundaries; a test fixes a few values per field and no combination of nesting", "anchors": ["golem_messages/datastructures/tasks.py:28-151", "golem_messages/datastructures/p2p.py:11-39", "golem_messages/datastructures/stats.py:8-194", "golem_messages/datastructures/__init__.py:109-154"]}
{"id": "C65", "title": "Messages follow the catalogue", "statement": "What is on the wire follows one catalogue of 63 message classes (type number, fields in order, kind of each field, signed, encrypted, who may sign, links to the TaskToCompute). Frames with other numbers are refused; an accepted message has exactly the listed fields with values of the listed kinds at every depth; a field listed as mandatory message is not None; signatures are required exactly where listed; a constructed message is dumped with the listed number and field names in order and encrypted exactly where listed; ownership and accessors use the listed parties and links.", "quantifier": "all frames, keys, clocks, all classes and all constructor arguments", "why_tests_cant": "tests have one sample per class; the claim is about every frame and every nesting", "anchors": ["golem_messages/message/base.py:80-130", "golem_messages/message/tasks.py", "golem_messages/message/concents.py", "golem_messages/message/p2p.py", "golem_messages/message/resources.py"]}
{"id": "C66", "title": "Encrypted sessions deliver", "statement": "In a process that has sent any messages to anybody at any times (with keys cached, moved, evicted and cleared as the key manager does), the next frame dumped for a recipient is one sealed under a key drawn by this process and agreed with that recipient, and the recipient loads exactly the message sent; the keys really used are those of the abstract cache of C26; a frame accepted as encrypted carries a valid MAC for a secret agreed with the recipient's key, so two accepted frames with the same point and tag have the same content unless the MAC has a collision.", "quantifier": "all histories of dump calls (messages, keys, times, IVs), all drawn keys, all recipients whose key pair agrees with the drawn keys", "why_tests_cant": "the cache makes the outcome depend on the whole history; tests encrypt once or twice", "anchors": ["golem_messages/shortcuts.py:6-28", "golem_messages/cryptography.py:211-324", "golem_messages/message/base.py:212-245"]}
{"id": "C67", "title": "No access without the private key", "statement": "A frame encrypted for somebody is not accepted by a receiver that has no private key.", "quantifier": "all histories, encrypted frames and receivers without a private key, with or without a sender key", "why_tests_cant": "the ciphertext is random; that its first byte always decodes to an int and that this is silently read as an empty message is a fact about all ciphertexts", "anchors": ["golem_messages/shortcuts.py:20-28", "golem_messages/message/base.py:454-506", "golem_messages/serializer.py:12-35"]}
{"id": "C68", "title": "Ethereum addresses of keys", "statement": "pubkey_to_address returns exactly the EIP-55 checksummed address (the last twenty bytes of the Keccak hash) of the key its argument stands for: hexadecimal text in either case with or without 0x, bytes, or a number; every spelling of a key as text gives the same address; values with one address stand for one key unless hashes collide; everything else is refused with ValueError or TypeError.", "quantifier": "all argument values of any type, all 32-byte hash functions", "why_tests_cant": "tests compare one key with one address; spellings, odd digit counts, leading zeros and the checksum of every digit are beyond samples", "anchors": ["golem_messages/utils.py:11-18", "golem_messages/message/tasks.py:331-334"]}
{"id": "C69", "title": "What a promissory note signature covers and who made it", "statement": "The hash signed for a well-formed note is Keccak over the preamble for 124 bytes and the 124 bytes of contract, payer, payee, amount and subtask; different messages are hashed as different bytes; a signature is valid exactly if the recovered public key has the payer's address; it is valid for one promise only unless Keccak collides or ECDSA is broken; notes signed with the private key of the public key named in the task verify.", "quantifier": "all notes, signatures, keys and tasks; Keccak and ECDSA as parameters", "why_tests_cant": "one signature of one note says nothing about the other notes it might be valid for", "anchors": ["golem_messages/datastructures/promissory.py:39-148", "golem_messages/message/tasks.py:448-504"]}
{"id": "C70", "title": "The payer is who signed the task", "statement": "The address that the promissory notes of a loaded TaskToCompute charge is the address of the public key that its ethsig was checked with.", "quantifier": "all frames that load as a TaskToCompute, all hash functions with 32-byte results", "why_tests_cant": "two different decoders (decode_hex and eth_utils) read the same field; they differ only for value types tests do not send", "anchors": ["golem_messages/message/tasks.py:331-334", "golem_messages/message/tasks.py:411-428", "golem_messages/utils.py:11-32"]}
{"id": "C71", "title": "The spelling of the provider's address does not matter", "statement": "The note of a SubtaskResultsVerify signed with the private key of the provider's Ethereum address verifies, in whatever letter case the provider wrote the address.", "quantifier": "all providers, addresses in any spelling, key pairs and notes", "why_tests_cant": "the test factories only ever write checksummed addresses", "anchors": ["golem_messages/message/concents.py:231-242", "golem_messages/datastructures/promissory.py:89-148"]}
{"id": "C72", "title": "IP address validation", "statement": "validate_ipaddress accepts exactly the texts of IPv4 addresses (four octets) and IPv6 addresses (RFC 4291 text form, with scope ids where Python has them), raises FieldError naming the field for everything else, and decides alike under every version of Python the library supports; no text denotes two addresses.", "quantifier": "all values of any type, all texts of any length, all supported parser versions", "why_tests_cant": "the grammar (gaps, embedded IPv4, leading zeros, scope ids) has unboundedly many texts; tests try a handful", "anchors": ["golem_messages/validators.py:64-72", "golem_messages/datastructures/p2p.py:11-39", "setup.py:37"]}
{"id": "C73", "title": "Key pair construction", "statement": "ECCx(raw_privkey) ends for every private key; a pair it returns has a 32 byte private key and the 64 byte public key belonging to it (the given private key, if one was given), generated keys of other lengths being replaced; what the pair signs it verifies, and a signature not of 65 bytes is refused.", "quantifier": "all private keys, all sequences of generated pairs of any length, all numbers of iterations of the loop, all messages and signatures", "why_tests_cant": "short keys are generated with probability 1/256 and a loop that does not end cannot be observed", "anchors": ["golem_messages/cryptography.py:81-86", "golem_messages/cryptography.py:131-202"]}
{"id": "C74", "title": "Accepted content was signed by the key holder", "statement": "Whatever sign_message, dump and TaskHeader.sign sign determines the bytes hashed; a task header never has the bytes of a message. If load accepts a frame of a signed class with a sender's key, the message it returns has the class, type, timestamp, fields and (Hello) version of a message the key holder signed; the same holds for a message or task header that verifies on its own and for every task message within evidence that verify_owners accepts, with the key of an expected party. The only alternatives are that the accepted bytes collide with bytes the holder signed, or that the signature counts as theirs on a digest they never signed.", "quantifier": "all frames, keys, clocks and decryption functions, all sets of things a key holder signed (messages and headers), all chains of nested messages of any depth", "why_tests_cant": "authenticity quantifies over everything an attacker could send and everything the signer ever signed", "anchors": ["golem_messages/message/base.py:193-210", "golem_messages/message/base.py:218-236", "golem_messages/message/base.py:440-486", "golem_messages/message/base.py:522-578", "golem_messages/message/tasks.py:159-210", "golem_messages/datastructures/tasks.py:100-125", "golem_messages/shortcuts.py:8-40"]}
{"id": "C75", "title": "Who a message is for", "statement": "A signed encrypted message that deciphers with the receiver's private key and verifies with the sender's key was sealed for that receiver by the sender: nobody else can pass it on to a third party as if it had been sent to them.", "quantifier": "all frames, keys, payloads, receivers and ephemeral keys", "why_tests_cant": "it speaks of everything an intermediate reader could construct, for every pair of receivers", "anchors": ["golem_messages/message/base.py:193-210", "golem_messages/message/base.py:440-486", "golem_messages/message/base.py:522-578", "golem_messages/shortcuts.py:8-40", "golem_messages/cryptography.py:287-365"]}
{"id": "C76", "title": "Honest exchanges are accepted and stand as evidence", "statement": "If the parties of a subtask follow the protocol - the requestor signs the task header, the provider's signed offer contains it, the requestor assigns the subtask with ids from their own id and an ethereum signature, and every further task message is sent by a party meant to send it and carries messages of the exchange - then every receiver's load returns the message exactly as the sender has it, and verify_owners accepts every task message sent and every task message inside it with the parties' keys.", "quantifier": "all exchanges of any length between any parties, all task message classes with any nesting, all contents, encrypted or not, all clocks within the limits", "why_tests_cant": "the exchanges and the nesting of the evidence are unbounded", "anchors": ["golem_messages/shortcuts.py:8-40", "golem_messages/message/base.py:218-236", "golem_messages/message/base.py:440-486", "golem_messages/message/tasks.py:108-223", "golem_messages/message/tasks.py:371-446", "golem_messages/datastructures/tasks.py:100-125"]}
{"id": "C77", "title": "Caches of the key manager change no result", "statement": "A function under lru_cache answers every call as the function itself, whatever was called before, and its cache holds the 1024 argument tuples last used without an exception, most recently used first. In particular the caches of ecdh (shared by all managers) and of get_derived_keys change no result of ECIES encrypt and decrypt: decrypt depends on its arguments only, encrypt on its arguments, the IV and the ephemeral key in use for the recipient.", "quantifier": "all sequences of encrypt and decrypt calls by any number of key managers at any times, all drawn keys and IVs, all key agreement primitives", "why_tests_cant": "the answer of a cached function depends on the whole history and on evictions after 1024 entries", "anchors": ["golem_messages/cryptography.py:203-205", "golem_messages/cryptography.py:237-256", "golem_messages/cryptography.py:296-368"]}
{"id": "C78", "title": "The clean-up discards expired ephemeral keys", "statement": "After the clean-up has run, the process holds no ephemeral private key, and no secret agreed with one, that was drawn before it. (False: the clean-up clears the cache of get_ephem_key only; the cache of ecdh keeps the private key object and the agreed secret until 1024 other agreements have been made.)", "quantifier": "all sequences of encrypt and decrypt calls by any number of key managers at any times", "why_tests_cant": "tests look at the size of one cache; what is still reachable from the others, and for how long, needs all histories", "anchors": ["golem_messages/cryptography.py:208-213", "golem_messages/cryptography.py:237-240", "golem_messages/cryptography.py:258-285"]}
{"id": "C79", "title": "Replayed frames", "statement": "load keeps no record of frames: within the window of a frame's timestamp (five minutes before to ten minutes after) it gives the same result for the frame at any time; with check_time a frame accepted twice gives the same message both times and at most fifteen minutes lie between; without check_time a frame accepted once is accepted for ever.", "quantifier": "all frames, keys, environments and pairs of times", "why_tests_cant": "the claim compares any two calls, for arbitrary bytes and times", "anchors": ["golem_messages/message/base.py:28-53", "golem_messages/message/base.py:418-452", "golem_messages/shortcuts.py:20-28", "golem_messages/settings.py:5-6"]}
{"id": "C80", "title": "Received messages can be shown", "statement": "repr() of a message that load returned, and of every message nested in it, does not raise, whatever the frame contained: slots() fails with FieldError at most, which __repr__ catches.", "quantifier": "all frames, keys and times, all messages nested in the result at any depth", "why_tests_cant": "__repr__ catches one exception only, so the claim needs that serialising arbitrary received contents raises no other", "anchors": ["golem_messages/message/base.py:160-171", "golem_messages/message/base.py:506-515", "golem_messages/message/base.py:697-701", "golem_messages/message/p2p.py:49-56"]}
{"id": "C81", "title": "Payloads are read as RFC 7049 says", "statement": "serializer.loads reads a byte string as a value exactly if the string starts with a CBOR data item that spells that value (integers, byte and text strings, arrays, maps, tags, definite and indefinite lengths, simple values, half, single and double floats), ignoring what follows; every other byte string is a SerializationError. The spelling is unambiguous, and what serializer.dumps writes for plain data spells it.", "quantifier": "all byte strings and all values", "why_tests_cant": "the accepted language is infinite and nested without bound; payloads come from the network, so every byte string is an input", "anchors": ["golem_messages/serializer.py:12-35", "golem_messages/message/base.py:371-391"]}
{"id": "C82", "title": "Length of frames", "statement": "A frame that dump returns is as long as the CBOR text of the message's fields and 76 bytes, plus 113 bytes if the class is encrypted and a key to encrypt for is given, plus 32 bytes for Hello; without encryption the text stands in the frame at offset 76.", "quantifier": "all messages, keys, environments, times and histories of earlier sends", "why_tests_cant": "the claim is about every message and every earlier use of the key caches", "anchors": ["golem_messages/message/base.py:212-262", "golem_messages/message/base.py:679-695", "golem_messages/shortcuts.py:9-17", "golem_messages/cryptography.py:292-319"]}
{"id": "C83", "title": "A frame determines its message", "statement": "Two well-typed messages whose frames are equal have the same class, time, encryption flag, signature and fields, even if the senders sealed them in different ways, provided one decryption function undoes both; a Hello's version must be ASCII of at most 31 characters.", "quantifier": "all pairs of well-typed messages, keys and encryption functions", "why_tests_cant": "injectivity compares all pairs of messages, nested to any depth", "anchors": ["golem_messages/message/base.py:212-294", "golem_messages/message/base.py:296-389", "golem_messages/message/base.py:454-504", "golem_messages/message/base.py:657-695"]}
{"id": "C84", "title": "Received messages hold at most a multiple of their frame", "statement": "The message that load returns - its fields and nested messages at any depth, numbers, texts and defaults filled in together - holds at most 17 times as many objects, characters and bytes as the frame has bytes, so a sender cannot make the receiver build much from little.", "quantifier": "all frames, keys, environments and times", "why_tests_cant": "the bound is over every byte string and every nesting", "anchors": ["golem_messages/serializer.py:12-35", "golem_messages/message/base.py:296-389", "golem_messages/message/base.py:418-504", "golem_messages/datastructures/__init__.py:25-171", "golem_messages/datastructures/p2p.py:76-112", "golem_messages/cryptography.py:321-365"]}
{"id": "C85", "title": "Made-up ids and versions are valid", "statement": "The id that the test helpers make from a random UUID and a node id verifies against exactly the seeds that begin with the same six bytes (read as numbers) as the node id, and the version text they make from three numbers is a semantic version with exactly these numbers.", "quantifier": "all UUIDs, node ids, seeds and numbers", "why_tests_cant": "all 128-bit UUIDs, keys of any length and unbounded numbers", "anchors": ["golem_messages/factories/helpers.py:70-91", "golem_messages/idgenerator.py:11-43"]}
{"id": "C86", "title": "Tasks made with both key pairs are signed and consistent throughout", "statement": "A TaskToCompute made by with_signed_nested_messages is signed by the requestor, the offer in it by the provider and the task header in that by the requestor; all name the same requestor and the same task; and the task passes the checks made on arrival and the ownership check for these parties. Arguments that are given are not replaced.", "quantifier": "all key pairs of any signature scheme, all random draws and clocks, all further arguments that are not about keys, ids or signatures", "why_tests_cant": "the draws are random and the signature scheme is arbitrary; the tests use one draw each", "anchors": ["golem_messages/factories/tasks.py:20-235", "golem_messages/factories/datastructures/tasks.py:17-54", "golem_messages/factories/helpers.py:70-121", "golem_messages/factories/datastructures/p2p.py:8-14"]}
{"id": "C87", "title": "A clone is the message it was made from", "statement": "clone_message returns a message of the same class with the same signature and the same fields, at every depth, and with the header that was asked for or else the original one; so whatever holds of the original (its hash, its signature, its validity) holds of the clone. VerdictReportComputedTask as its factory makes it therefore carries one report twice.", "quantifier": "all messages that hold what their class declares, all received messages without gaps, all header overrides and environments", "why_tests_cant": "messages nest to any width with arbitrary data in their fields; the tests clone a handful", "anchors": ["golem_messages/factories/helpers.py:18-38", "golem_messages/factories/concents.py:342-364", "golem_messages/message/base.py:99-142", "golem_messages/message/base.py:691-695"]}
{"id": "C88", "title": "Made tasks have the deadline asked for", "statement": "The definition in a TaskToCompute made by the factory has the deadline, extra data, performance, images and resources asked for, its deadline being one day ahead by default, its extra data asking Blender for one frame and its resources being the one drawn; past_deadline makes a task whose deadline passed a day ago.", "quantifier": "all random draws, clocks, signature schemes and arguments", "why_tests_cant": "the hooks that run afterwards rewrite the definition depending on the other arguments; the tests use a few combinations", "anchors": ["golem_messages/factories/tasks.py:54-70", "golem_messages/factories/tasks.py:149-235"]}
{"id": "C89", "title": "Made tasks and offers have the ids and keys asked for", "statement": "A TaskToCompute made by the factory has the task and subtask ids asked for; without one, the task id is that of the offered task if the requestor owns it, and otherwise (and for the subtask always) a fresh id derived from the requestor's id. An offer made by the factory has the provider key, address, header and price asked for; by default its key is the drawn one as hexadecimal text and its address that of its key.", "quantifier": "all random draws, clocks, signature schemes, hash functions and arguments", "why_tests_cant": "the hooks combine arguments of three nested factories; the tests use a few combinations", "anchors": ["golem_messages/factories/tasks.py:20-36", "golem_messages/factories/tasks.py:160-193", "golem_messages/factories/helpers.py:70-84"]}
{"id": "C90", "title": "Arguments of factories reach the messages they are for", "statement": "An argument a__b__...__field of a message factory is the value of that field in the message found by going through the message fields a, b, ..., at every depth: no hook, default or sub-factory in between changes it. Refuted for fields that hooks rewrite (arguments for the report in the acknowledgement of a verdict are lost).", "quantifier": "all factories, paths through message fields, fields, values, further arguments, random draws and signature schemes", "why_tests_cant": "there are hundreds of paths and unboundedly many combinations of arguments; the tests use a few", "anchors": ["golem_messages/factories/helpers.py:41-67", "golem_messages/factories/tasks.py:240-334", "golem_messages/factories/concents.py:30-381"]}
{"id": "C91", "title": "A key given to a factory signs the message it is for", "statement": "After CFactory(a__b__sign__privkey=k) the message found through the fields a, b verifies with the public key of k. Refuted for messages whose factories write fields after the inherited sign hook has run (rejections and responses with generated messages, payments, verdicts, tokens for downloads): there the signature covers the message without these fields.", "quantifier": "all factories, paths, key pairs, further arguments, random draws and signature schemes", "why_tests_cant": "the outcome depends on the order of hooks in each of thirty factories; the tests sign few of them and verify fewer", "anchors": ["golem_messages/factories/helpers.py:98-121", "golem_messages/factories/concents.py:45-61", "golem_messages/factories/concents.py:186-210", "golem_messages/factories/concents.py:354-365"]}
{"id": "C92", "title": "Class methods of factories do what their names say", "statement": "Messages made by class methods of factories (premature, to_requestor, with_task_failure, ...) have the reason, origin or recipient of the name, hold a message of the class in the name, and as many acceptances as asked for. Refuted for the reason in with_reject_report_computed_task, which replaces a reason asked for and otherwise draws one at random.", "quantifier": "all class methods, arguments, random draws and signature schemes", "why_tests_cant": "arguments of all combinations can interfere with those the methods add; the error found goes unnoticed in tests that do not look at the reason", "anchors": ["golem_messages/factories/tasks.py:290-312", "golem_messages/factories/concents.py:105-115", "golem_messages/factories/concents.py:170-267", "golem_messages/factories/concents.py:283-339"]}
{"id": "C93", "title": "What factories make is well formed and can be sent", "statement": "Whatever is drawn, and whatever arguments of the declared kinds are given, also through a__b__c names, a message made by a factory holds values of the declared kinds in all fields, at every depth, and when dumped it is received as it was. Refuted for ForcePaymentFactory() and ForcePaymentRejectedFactory() without arguments: the list of acceptances is None, and the message cannot be dumped.", "quantifier": "all factories, arguments, random draws, signature schemes, keys and times of receipt", "why_tests_cant": "factories feed one another through unboundedly many argument names; the tests build most messages with fixed arguments, and payments with a given list", "anchors": ["golem_messages/factories/tasks.py:1-330", "golem_messages/factories/concents.py:1-380", "golem_messages/factories/helpers.py:1-121", "golem_messages/message/base.py:430-520"]}
{"id": "C94", "title": "Tokens, nodes and usual values in made messages fit them", "statement": "The token in a ForceGetTaskResultUpload is for uploading and in a ForceGetTaskResultDownload for downloading, even if another operation is asked for; the token in an AckSubtaskResultsVerify describes two files, of category resources and results. Arguments like file_transfer_token__files__1__size, node_info__node_name and node__key end in the description of that file, in that node and in the node of that peer. Reasons, origins, recipients and deadlines not asked for have the documented values.", "quantifier": "all arguments, draws and signature schemes", "why_tests_cant": "arguments, presets of sub-factories and post-generation hooks interact; any other argument must leave the outcome alone", "anchors": ["golem_messages/factories/concents.py:21-94", "golem_messages/factories/concents.py:148-163", "golem_messages/factories/datastructures/p2p.py:8-23", "golem_messages/factories/tasks.py:315-334"]}
{"id": "C95", "title": "A message that holds what its class declares can be sent and arrives", "statement": "A message whose fields hold what its class declares, at every depth, with sizes the payload codec can write, always has a digest, can always be signed, and is always dumped to a frame, provided its time stamp fits a header, it is not signed again and the keys given sign and encrypt. Loading that frame gives the message back with all its fields unless the validation of its class refuses it; if the class has no such validation it always arrives.", "quantifier": "all classes, all well-formed messages of any depth and size below the limits of the codec, all keys, signature and encryption schemes", "why_tests_cant": "success must hold for every combination of optional, nested and listed content; round-trip tests start from messages that happened to be dumped", "anchors": ["golem_messages/message/base.py:193-284", "golem_messages/message/base.py:506-515", "golem_messages/message/base.py:559-588", "golem_messages/shortcuts.py:9-17", "golem_messages/serializer.py:12-35"]}
{"id": "C96", "title": "Factories always make a message", "statement": "Whatever is drawn within the documented ranges, every factory of messages called without arguments makes a message of its class, with all the messages in it, and so does every class method of a factory, including with_signed_nested_messages with any usable key pairs and past_deadline. Classes without a factory have none. The factory of peers makes a peer for every port but 65535, which it may draw and which the validator of ports refuses (refuted).", "quantifier": "all draws of texts, numbers, bytes, enumeration members, identifiers, keys and clock readings in the ranges of the declarations; all signature and hash functions of the right lengths; all 33 classes and 14 class methods; all key pairs", "why_tests_cant": "the factories are random: a draw that makes one of them raise (like the last port) shows up once in thousands of runs", "anchors": ["golem_messages/factories/tasks.py:17-334", "golem_messages/factories/concents.py:21-381", "golem_messages/factories/datastructures/tasks.py:17-54", "golem_messages/factories/datastructures/p2p.py:8-23", "golem_messages/factories/helpers.py:1-121", "golem_messages/validators.py:1-103"]}
{"id": "C97", "title": "What factories make passes the checks of its class and loads", "statement": "Every message that a factory makes without arguments, that a class method of a factory makes, that with_signed_nested_messages makes with any usable key pairs, or that past_deadline makes, can be sent - signed or not, encrypted or not - and is loaded by the receiver within the time window with all its fields: the payment signature and the identifiers of a task, the payment time, the reason of a rejection and the agreement of the parts of a verdict included. Exceptions are the payment claim and the refused payment claim made without arguments, which cannot be dumped (refuted).", "quantifier": "all draws in the ranges of the declarations, all classes with a factory, all class methods, all key pairs, signature, hash and encryption functions, all times in the window, all released versions of the library", "why_tests_cant": "the factories draw at random, and a check in load that refuses some drawn combination (identifier not derived from the drawn key, parts of a verdict from different tasks) fails only sometimes or only for some classes", "anchors": ["golem_messages/factories/tasks.py:17-334", "golem_messages/factories/concents.py:21-381", "golem_messages/message/tasks.py:200-223", "golem_messages/message/tasks.py:371-440", "golem_messages/message/tasks.py:583-594", "golem_messages/message/tasks.py:648-668", "golem_messages/message/concents.py:102-114", "golem_messages/shortcuts.py:9-28"]}
{"id": "C98", "title": "The computed version of the library is a version other nodes accept", "statement": "Of a checkout whose last tag is the prefix followed by a semantic version, version.py computes that version, and after further commits the same version with +devN.gID, which is again a semantic version with the same numbers and pre-release; so nodes built from any such checkouts accept one another's Hello exactly if the tagged releases do (same major and minor number, no pre-release of a .0 release). The computed version is that of the checkout in cwd, RELEASE-VERSION there (which becomes golem_messages.__version__) holds it afterwards and is used where git does not answer, and it fits into a Hello. Refuted: a tag with a build, cwd, the fall-back on the file, the length.", "quantifier": "all semantic versions, prefixes, numbers of commits and commit ids, all contents of the file, all working directories", "why_tests_cant": "version.py has no tests, it depends on the state of the checkout it is run in, and what it makes is only seen when two differently built nodes meet", "anchors": ["version.py:41-97", "setup.py:15-26", "golem_messages/__init__.py:6-8", "golem_messages/message/base.py:56-79", "golem_messages/message/base.py:686-738"]}
{"id": "C99", "title": "Keys from passwords", "statement": "mk_privkey gives a private key of 32 bytes for every text and every bytes (that of a text is that of its UTF-8 encoding) and for nothing else; two texts with the same key are a collision of Keccak-256. ECCx(mk_privkey(seed)) always comes to an end, always the same one, and if it is a key pair its private key is the one of the password.", "quantifier": "all passwords, all hash functions with 32 bytes, all curves", "why_tests_cant": "the constructor loops until the length of the private key is right, which for other keys is never (C73); tests use one password", "anchors": ["golem_messages/cryptography.py:81-86", "golem_messages/cryptography.py:99-108", "golem_messages/cryptography.py:139-155"]}
{"id": "C100", "title": "Delayed messages are in time", "statement": "A message that is sent after the delay of its class (MSG_DELAYS) and up to seven minutes more, is under way for at most the maximum transport time, and is received by a node whose clock, like that of the sender, is off by at most the maximum time difference, passes the time check of load. The report to the Concent is not sent before an answer of the requestor within the maximum action time can have arrived.", "quantifier": "all frames of all classes, all times in the calendar of the header, all delays, transport times and clock differences within the constants", "why_tests_cant": "the constants live in two files, tests freeze the clock and send at once, and nothing relates the delays to the window of load", "anchors": ["golem_messages/constants.py:6-46", "golem_messages/settings.py:5-10", "golem_messages/message/base.py:28-53"]}
{"id": "C101", "title": "The cipher library is found where the code looks for it", "statement": "When golem_messages.cryptography is imported, the library that stays in use has the cipher of the messages (aes-128-ctr) and is the one found with the environment variables as they are left. The import is done exactly if such a library is found: on Linux the usual one, on macOS the last version in one of the Homebrew directories or a usual one, on Windows one on PATH or, for a frozen program, in its own directory.", "quantifier": "all computers: platform, directories, environment variables, and any relation between these and the library that is found", "why_tests_cant": "tests run on one platform with one library; the branches for macOS and Windows are never run, and re-import of a module that is already imported is silent", "anchors": ["golem_messages/cryptography.py:20-73"]}
{"id": "C102", "title": "Made tasks carry the payment signature asked for", "statement": "A TaskToCompute that its factory makes has a payment signature (ethsig) by the private key given as ethsig__privkey, else by the pair given as ethsig__keys, else by a new pair; with a pair it names the public key of that pair as requestor_ethereum_public_key. It has none if ethsig__disable is set, or if it is given a requestor_ethereum_public_key without key to sign. Contradictory or unknown arguments are refused. A signature by the private key of the payment key named is accepted by verify_ethsig.", "quantifier": "all arguments, draws, key pairs", "why_tests_cant": "the tests of the factories try one combination of arguments each", "anchors": ["golem_messages/factories/tasks.py:160-226", "golem_messages/message/tasks.py:386-428"]}
{"id": "C103", "title": "Dictionaries and nodes made from defaults are independent", "statement": "A frozen dictionary (ComputeTaskDef, FileInfo, CpuUsage, ...; not Peer, whose defaults are None) or a Node that is made at any time consists of the values given and the declared defaults, whatever was done before to others made from the same class. It holds only new objects and what it was given; later changes to anything that shares nothing with what it was given leave it as it is, and changes to it leave everything else as it is.", "quantifier": "all programs that start with the modules loaded and make or change objects they can reach, of any length, with any sharing between their objects; all arguments", "why_tests_cant": "mutable class-level defaults (extra_data: {}, resources: []) are shared by the whole process; a test sees a leak only if an earlier test happened to change a default in place", "anchors": ["golem_messages/datastructures/__init__.py:20-61", "golem_messages/datastructures/__init__.py:117-138", "golem_messages/message/tasks.py:22-35", "golem_messages/datastructures/p2p.py:35-39", "golem_messages/datastructures/stats.py:37-46"]}
{"id": "C104", "title": "A signed copy is not changed through the original", "statement": "copy_and_sign of an unsigned message gives a new message with the same contents and a signature. Whatever is done later with the original, the copy stays as it was signed and its signature verifies, so it can wait in a queue.", "quantifier": "all messages, keys, objects and later programs", "why_tests_cant": "the tests look at the copy right after it was made; what is shared shows only when the original is changed before the copy is sent", "anchors": ["golem_messages/utils.py:43-53", "golem_messages/message/base.py:185-200"]}
{"id": "C105", "title": "Frames that are passed on do not change", "statement": "Nodes that load a frame and send the message on unencrypted produce, from the first of them on, always the same frame, byte for byte; the frame of a well-formed message that was sent unencrypted is never changed. If no mandatory field is missing, a frame that was passed on can be passed on again.", "quantifier": "all frames, all numbers of nodes, all keys and clocks of the nodes, all well-formed messages", "why_tests_cant": "a test passes on a few frames made by the library itself, once; frames of other implementations and chains of any length are not reached", "anchors": ["golem_messages/message/base.py:212-245", "golem_messages/message/base.py:417-484", "golem_messages/shortcuts.py:9-28"]}
{"id": "C106", "title": "Time for the verification of a report", "statement": "subtask_verification_time of every report that was loaded is sixteen minutes, three download times of the reported size and half of the time from the task to its deadline, exact to the microsecond also for fractional deadlines. It is at least nineteen minutes, and it is not an error.", "quantifier": "all reports that load accepts, all sizes and deadlines", "why_tests_cant": "tests use factory reports with an integer size and deadline; sizes, deadlines and floats of the other party are arbitrary", "anchors": ["golem_messages/helpers.py:7-40", "golem_messages/constants.py:23-39", "golem_messages/message/tasks.py:522-561"]}
{"id": "C107", "title": "Which frames are accepted", "statement": "load gives a message exactly for the frames that can be read as the catalogue of messages says: more than 76 bytes, a timestamp of the years 2010 to 3009 (and fresh, if asked), a known type number, for Hello a compatible version, a payload that deciphers and starts with a CBOR item, whose fields are all of their kind, down to the fields of nested messages, and the sender's signature if one is expected. Everything else is refused. Only TaskToCompute, SubtaskResultsAccepted, SubtaskResultsRejected and VerdictReportComputedTask look at the message as a whole in addition.", "quantifier": "all byte strings, keys, clocks and environments", "why_tests_cant": "tests load frames that the library itself made and a few broken ones; the accepted byte strings are an infinite set with unbounded nesting", "anchors": ["golem_messages/message/base.py:296-377", "golem_messages/message/base.py:391-504", "golem_messages/message/p2p.py:58-115", "golem_messages/message/tasks.py:279-353", "golem_messages/message/concents.py:141-154", "golem_messages/shortcuts.py:20-28"]}
{"id": "C108", "title": "What an accepted frame is read as", "statement": "The message that load gives has the class of the type number, the type, timestamp, flag and signature of the frame, and for every field of its class in order the value that the payload gives it: the last of the entries with its name, choices as members of their enumeration, nodes, task headers, usage statistics, peers, files and task definitions as objects of their kind with the defaults of the kind, nested messages with their own header, signature and fields, and fields that are not given as the default of the class; a Hello also has the version of the frame. Each frame reads as one message at most.", "quantifier": "all byte strings, keys, clocks and environments", "why_tests_cant": "tests compare a few loaded messages with the ones serialized by the same code; payloads of other parties give any fields, in any order, repeated or missing, with unbounded nesting", "anchors": ["golem_messages/message/base.py:296-377", "golem_messages/message/base.py:391-504", "golem_messages/datastructures/__init__.py:1-176", "golem_messages/datastructures/p2p.py:1-138", "golem_messages/datastructures/tasks.py:1-151", "golem_messages/datastructures/stats.py:1-210"]}
{"id": "C109", "title": "What a message becomes on the wire", "statement": "dump succeeds exactly for the messages that can be written, and its bytes are these: type number in two and time in eight bytes, one flag byte, the signature (made with the key over the digest of type, time, payload and version if the message has none and its class is signed; 65 zeros without a key; otherwise the one it has, which must not be made again), then the payload, enciphered exactly if the class is encrypted and there is a key, then for Hello a length byte and at most 31 bytes of the version padded to 32 bytes. The payload is the shortest definite-length CBOR of the list of [name, value] for the declared fields in the order of the attributes; nested messages are (flag, (header, signature, fields)), members of enumerations are text, objects are dictionaries with empty statistics as None and masks as bytes. Afterwards the message holds that flag and signature and is otherwise unchanged.", "quantifier": "all messages of all classes with arbitrary attribute values at any depth, all keys, signature and encryption schemes", "why_tests_cant": "Tests compare a few frames with a round trip; that a relation describes exactly the frames of all messages, at any nesting and size, needs induction over values.", "anchors": ["golem_messages/message/base.py:193-294", "golem_messages/message/base.py:506-515", "golem_messages/message/base.py:679-689", "golem_messages/serializer.py:12-35", "golem_messages/datastructures/__init__.py:156-171", "golem_messages/datastructures/p2p.py:71-93", "golem_messages/message/p2p.py:49-127", "golem_messages/shortcuts.py:9-17"]}
{"id": "C110", "title": "Why a frame is refused", "statement": "Whenever load raises, the frame has a definite first fault, looked for in the order length, header, time, version, cipher, codec, fields in their declared order, signature, check of the whole message; and that fault determines the exception. A frame of at most 76 bytes gives MessageError, a header out of range or unknown HeaderError, an old one MessageTooOldError, one from the future MessageFromFutureError, a wrong version VersionMismatchError, a cipher failure DecryptionError (or the MessageError the function raised), a payload that does not begin with a data item SerializationError, a value that is not one of the declared ones or a wrong nested message a FieldError of that field (of the innermost field for nested messages), a sender key of the wrong length InvalidKeys, a wrong signature InvalidSignature; and the message as a whole gives exactly the exception listed for its class, which includes TypeError, OverflowError, AttributeError, ValueError and binascii.Error. A record inside a field gives the exception of its own first fault. Conversely every frame with such a fault makes load raise exactly that exception.", "quantifier": "all byte strings, keys, clocks, time-check flags, versions, decryption functions and environments", "why_tests_cant": "The set of faulty frames is infinite and a frame may have several faults; a test fixes one fault in one frame and cannot say which of several is reported for all of them.", "anchors": ["golem_messages/message/base.py:296-505", "golem_messages/message/base.py:655-690", "golem_messages/shortcuts.py:18-28", "golem_messages/validators.py:12-103", "golem_messages/message/tasks.py:60-330", "golem_messages/exceptions.py:1-70"]}
{"id": "C111", "title": "What is wrong with a record", "statement": "Nodes, task headers and statistics that cannot be built have one first fault: not a dictionary of texts (or one with the key self) is a MessageError; otherwise the first declared field that is required and missing, or whose value is not acceptable, is named by a FieldError, except that a value that is a record itself gives the fault of that record and a dictionary of counters with a wrong key a MessageError; otherwise the first keyword that is no field is named by a FieldError. Task definitions, peers and files give the fault of the first wrong entry in the order they come in (a MessageError for unknown keys and for what is no pair, a FieldError for a wrong value), and a peer then a FieldError for the first key it lacks.", "quantifier": "all decoded payload values of any depth, all environments", "why_tests_cant": "Records nest without bound and may have many faults at once; a test shows one fault in one record, not which of several is reported.", "anchors": ["golem_messages/datastructures/__init__.py:1-176", "golem_messages/datastructures/p2p.py:1-138", "golem_messages/datastructures/tasks.py:1-151", "golem_messages/datastructures/stats.py:1-210", "golem_messages/message/tasks.py:28-60", "golem_messages/message/base.py:391-504"]}
{"id": "C112", "title": "Why a message cannot be sent", "statement": "dump raises exactly if the message has a fault, with the exception of the fault found first, and this is the order: a signature that would be overwritten (SignatureAlreadyExists, the message is untouched); the first field, down to nested messages, that cannot be sent (FieldError naming it for a nested message that is missing or of another class, for a node that is no node and for tasks that are no list; TypeError for peers that are not iterable and for a mask given as a number; AttributeError or KeyError for a peer or task header that is none); a payload, or type and time to be signed, that cbor cannot write (SerializationError); a Hello without version (AttributeError; at the very end if it is not to be signed); a failure to sign and then to encrypt (as raised); a time that is no unsigned 64-bit number (struct.error); a signature that is no byte string (TypeError). After a failure only the flag and, from encryption on, the signature of the message have changed.", "quantifier": "all messages of all classes with arbitrary field values and nesting, all keys, all environments and encryption functions", "why_tests_cant": "Fields and nested messages may have any values to any depth and several faults at once; a test shows one fault in one message, not which of several is reported nor that there are no others.", "anchors": ["golem_messages/shortcuts.py:9-17", "golem_messages/message/base.py:193-294", "golem_messages/message/base.py:506-520", "golem_messages/message/base.py:679-689", "golem_messages/message/p2p.py:49-56", "golem_messages/message/p2p.py:117-127", "golem_messages/datastructures/p2p.py:71-138", "golem_messages/datastructures/__init__.py:156-171"]}
{"id": "C113", "title": "A dump that failed can be repeated", "statement": "If dump raises, the message can be dumped again as if the first attempt had not been made: for all keys and recipients the second dump has the outcome that it would have had as the first.", "quantifier": "all messages, keys, environments and encryption functions, also different ones for the two attempts", "why_tests_cant": "The two attempts may differ in keys, recipient and environment, and the first can fail at any of its steps; a test takes one combination.", "anchors": ["golem_messages/shortcuts.py:9-17", "golem_messages/message/base.py:212-245"]}
{"id": "C114", "title": "What checking the owners of a task message says", "statement": "verify_owners succeeds exactly if an expected provider or requestor key is the one named in the TaskToCompute and every task message in the tree of attributes is signed by one of the parties that may send its class, those tried before having well-formed keys, and the task header in every TaskToCompute is signed by the requestor. Otherwise it reports the first fault in this order: provider, then requestor (AttributeError if there is no TaskToCompute or offer, ValueError, binascii.Error or TypeError for a key that is not hexadecimal, OwnershipMismatch for another key); then messages, each before those inside it and attributes in order; for a TaskToCompute first its header (missing: AttributeError; key not hexadecimal; no signature: InvalidSignature; mask given as a number: TypeError; unserialisable: SerializationError; key not of 64 bytes: InvalidKeys; signed by somebody else: InvalidSignature); then the parties of the message; its digest (as sending its fields would raise); then the possible senders in order (Concent without a key: TypeError; key not of 64 bytes: InvalidKeys); nobody of them signed: InvalidSignature.", "quantifier": "all task messages of all classes with arbitrary attributes and nesting, all signatures, all expected keys given or not, all environments", "why_tests_cant": "The tree of messages is unbounded and each message in it may have several faults at once; which one is reported, and that nothing else is, depends on all of them.", "anchors": ["golem_messages/message/tasks.py:108-198", "golem_messages/message/tasks.py:442-446", "golem_messages/message/base.py:193-210", "golem_messages/message/base.py:522-588", "golem_messages/datastructures/tasks.py:108-132", "golem_messages/cryptography.py:111-128"]}
{"id": "C115", "title": "What signing and checking promissory notes says", "statement": "Checking a note gives exactly: the exception of the requestor's address or AttributeError without an offer, whether signed or not; False without a signature; TypeError for a signature that has not three elements; then the first fault of the note's text (payer or payee not text: TypeError; amount not an integer: AttributeError, not in 0..2^256-1: OverflowError; id None or bytes: TypeError, otherwise not text: AttributeError, not a UUID: ValueError); the exception of the hash or of the recovery; and otherwise True exactly if the recovered address is the payer's text. verify_all_promissory_notes checks the Concent's note first and the provider's only if that is True. Signing fails for the same reasons, for those of the signing function, and with OverflowError for r or s beyond 32 bytes; otherwise it sets (v, r, s) with r and s in 32 bytes and nothing else. The text is 0x, the three addresses without two characters, 64 digits of the amount, 32 of the UUID and 32 zeros.", "quantifier": "all TaskToCompute and SubtaskResultsVerify messages with any attribute values (the task description a dictionary or empty), all signatures, contracts and keys, all behaviours of hash, signature, recovery and address functions", "why_tests_cant": "Every attribute may be of any type and several may be wrong at once; amounts and ids are unbounded.", "anchors": ["golem_messages/datastructures/promissory.py:39-148", "golem_messages/message/tasks.py:448-504", "golem_messages/message/concents.py:231-242", "golem_messages/utils.py:35-36"]}
{"id": "C116", "title": "Both promissory notes are signed, or none", "statement": "If sign_all_promissory_notes fails, the task is as it was before.", "quantifier": "all TaskToCompute messages (the description a dictionary or empty), contracts, keys and behaviours of the Ethereum functions", "why_tests_cant": "Which of the two signatures fails depends on every field of the message and on the signing functions.", "anchors": ["golem_messages/message/tasks.py:484-496", "golem_messages/datastructures/promissory.py:126-138"]}
{"id": "C117", "title": "Comparing nodes", "statement": "Two nodes are equal exactly if they agree in each of their thirteen attributes, which every made or received node has; this is an equivalence. Comparing a node with anything that is not a node, None included, raises TypeError, and nothing else makes the comparison fail.", "quantifier": "all nodes with arbitrary attribute values, all other values", "why_tests_cant": "Attributes take arbitrary values, and each of them has to count.", "anchors": ["golem_messages/datastructures/p2p.py:60-65", "golem_messages/datastructures/p2p.py:11-33", "golem_messages/datastructures/__init__.py:156-171"]}
{"id": "C118", "title": "Why a ciphertext is refused", "statement": "decrypt raises DecryptionError if the ciphertext does not start with 0x04 or its tag is wrong, what key agreement raises if its point is no good, and AssertionError if it is too short although its tag is right, in this order, and nothing else; such short ciphertexts can be made without any secret. encrypt fails exactly if the public key is no good, whatever the data. load turns all of these into DecryptionError.", "quantifier": "every byte string as ciphertext, every key, associated data and initialisation vector", "why_tests_cant": "The faults overlap: only a proof over all byte strings shows that each is reported first in its own place and that none is left.", "anchors": ["golem_messages/cryptography.py:294-324", "golem_messages/cryptography.py:326-365", "golem_messages/message/base.py:461-471"]}
{"id": "C119", "title": "Private keys leave no trace but signatures", "statement": "A private key influences what dump, sign_message, copy_and_sign, TaskHeader.sign, generate_ethsig, sign_all_promissory_notes and, for a result, sign_concent_promissory_note produce only through the signature of the one digest that is to be signed: two keys that sign it alike give the same bytes, the same exception and the same message afterwards. What load does depends on the private key only through what deciphering makes of the bytes after the frame's signature, and only if the frame says that they are enciphered.", "quantifier": "all messages with arbitrary attribute values, task headers, frames, pairs of keys, signature, hash and encryption functions", "why_tests_cant": "a test compares outputs for the keys it has; that nothing of any key gets into any output by another way is a statement about pairs of runs", "anchors": ["golem_messages/shortcuts.py:9-28", "golem_messages/message/base.py:212-262", "golem_messages/message/base.py:559-588", "golem_messages/datastructures/tasks.py:108-132", "golem_messages/message/tasks.py:386-409", "golem_messages/message/tasks.py:468-496", "golem_messages/utils.py:43-53"]}
{"id": "C120", "title": "Which signatures are looked at on arrival", "statement": "load looks at no more than two signatures: the frame's own, over the digest of its type, time, payload and version, if a sender is expected; and in a TaskToCompute the payment signature, over the digest of its offer. Its outcome and the deciphering it asks for depend on hashes and on the signature scheme in no other way: signatures of nested messages, of task headers and of promissory notes are not looked at, and without an expected sender nothing is hashed, except for a TaskToCompute.", "quantifier": "all byte strings, keys, clocks, and pairs of hash and signature schemes that agree on these recoveries", "why_tests_cant": "independence from every other signature, whatever the scheme makes of it, quantifies over pairs of schemes", "anchors": ["golem_messages/message/base.py:418-484", "golem_messages/message/base.py:657-677", "golem_messages/message/tasks.py:200-206", "golem_messages/message/tasks.py:371-428", "golem_messages/shortcuts.py:20-28"]}
{"id": "C121", "title": "Which signatures are looked at when owners are checked", "statement": "verify_owners looks at the own signatures of the task messages that are reached from the message by attributes that are task messages, over their digests, and at the signatures of the task headers of the offers in the TaskToCompute messages among them. Its verdict, with the exception, depends on hashes and on the signature scheme in no other way: payment signatures, promissory notes, the own signatures of offers, and messages kept in lists are not looked at.", "quantifier": "all messages with arbitrary attribute values at any depth, expected keys, and pairs of hash and signature schemes that agree on these recoveries", "why_tests_cant": "independence from every other signature, whatever the scheme makes of it, quantifies over pairs of schemes and over chains of any depth", "anchors": ["golem_messages/message/tasks.py:108-198", "golem_messages/message/tasks.py:442-446", "golem_messages/datastructures/tasks.py:114-132"]}
