{
 "claims": [
  {
   "property": "C01",
   "status": "proved",
   "theorems": [
    "Verif.Props.header_round_trip",
    "Verif.Props.header_layout",
    "Verif.Props.header_decision",
    "Verif.Props.header_decode_encode"
   ],
   "note": ""
  },
  {
   "property": "C02",
   "status": "partial",
   "theorems": [
    "Verif.Props.dump_load_roundtrip_partial",
    "Verif.Props.signed_roundtrip_partial",
    "Verif.Props.wellTyped_slots",
    "Verif.Props.conn_id_refuted",
    "Verif.Props.empty_list_refuted"
   ],
   "note": "For messages whose fields hold what their class declares, at every depth, with headers in the range dump accepts; the laws of the cipher and of the signature scheme for the keys used are hypotheses. False in two cases: conn_id of StartSessionResponse is lost and a message with an empty message list does not load (witnesses)."
  },
  {
   "property": "C03",
   "status": "partial",
   "theorems": [
    "Verif.Props.nested_digest_partial",
    "Verif.Props.nested_digest_refuted"
   ],
   "note": "Proved at every depth of trees whose fields hold what is declared. False for a TaskToCompute built with a plain dictionary as its definition: the receiver fills in missing keys and the signature no longer verifies (witness)."
  },
  {
   "property": "C04",
   "status": "partial",
   "theorems": [
    "Verif.Props.signed_dump_verifies",
    "Verif.Props.signed_dump_other_key",
    "Verif.Props.long_version_refuted"
   ],
   "note": "Holds for versions of at most 31 characters; a Hello with a longer version does not verify, shown by a witness. The law of the signature scheme for the signer's key pair and the inverse law of the cipher are hypotheses."
  },
  {
   "property": "C05",
   "status": "proved",
   "theorems": [
    "Verif.Props.load_authenticates",
    "Verif.Props.load_key_filters"
   ],
   "note": ""
  },
  {
   "property": "C06",
   "status": "partial",
   "theorems": [
    "Verif.Props.digest_binds",
    "Verif.Props.digest_binds_plain",
    "Verif.Props.signature_ignores_recipient",
    "Verif.Props.digest_ignores_flag",
    "Verif.Props.nested_flag_in_digest"
   ],
   "note": "The digest excludes the message's own encrypted flag but not the flags of nested messages, shown by a witness."
  },
  {
   "property": "C07",
   "status": "proved",
   "theorems": [
    "Verif.Props.resign_refused",
    "Verif.Props.existing_signature_emitted",
    "Verif.Props.signature_never_overwritten",
    "Verif.Props.first_dump_fixes_signature"
   ],
   "note": "A signature that is the empty byte string is kept but not refused (falsy in Python)."
  },
  {
   "property": "C08",
   "status": "proved",
   "theorems": [
    "Verif.Props.unsigned_dump",
    "Verif.Props.unsigned_load"
   ],
   "note": ""
  },
  {
   "property": "C09",
   "status": "proved",
   "theorems": [
    "Verif.Props.load_short",
    "Verif.Props.load_77"
   ],
   "note": ""
  },
  {
   "property": "C10",
   "status": "proved",
   "theorems": [
    "Verif.Props.min_is_2010",
    "Verif.Props.max_is_3010",
    "Verif.Props.load_header_gate",
    "Verif.Props.load_worked_gate",
    "Verif.Props.load_decrypt_calls"
   ],
   "note": ""
  },
  {
   "property": "C100",
   "status": "proved",
   "theorems": [
    "Verif.Props.delayed_in_time",
    "Verif.Props.answer_first"
   ],
   "note": ""
  },
  {
   "property": "C101",
   "status": "partial",
   "theorems": [
    "Verif.Props.library_in_use",
    "Verif.Props.library_linux",
    "Verif.Props.library_macos_partial",
    "Verif.Props.library_windows_partial",
    "Verif.Props.library_second_refuted",
    "Verif.Props.library_elsewhere_refuted",
    "Verif.Props.library_program_refuted",
    "Verif.Props.library_empty_directory"
   ],
   "note": "Exact decisions for every platform. False as stated: a second import of a module that is imported already does nothing, so on macOS the second directory and on Windows the directory of the program are not used if the first library lacks the cipher; macOS libraries outside Homebrew are not tried (witnesses)."
  },
  {
   "property": "C102",
   "status": "partial",
   "theorems": [
    "Verif.Props.ethsig_args",
    "Verif.Props.ethsig_privkey",
    "Verif.Props.ethsig_keys_partial",
    "Verif.Props.ethsig_drawn",
    "Verif.Props.ethsig_none",
    "Verif.Props.paid_verifies",
    "Verif.Props.ethsig_keys_refuted"
   ],
   "note": "Proved for all arguments and draws. False as stated: a pair given as ethsig__keys is ignored without an error when requestor_ethereum_public_key is given too, even if it is the key of that pair."
  },
  {
   "property": "C103",
   "status": "proved",
   "theorems": [
    "Verif.Props.defaults_kept",
    "Verif.Props.dict_value",
    "Verif.Props.fresh_definition",
    "Verif.Props.fresh_usage",
    "Verif.Props.dict_reach",
    "Verif.Props.dict_alone",
    "Verif.Props.node_value",
    "Verif.Props.fresh_node",
    "Verif.Props.node_reach",
    "Verif.Props.node_alone"
   ],
   "note": "Model of objects and references; any program from the state after import."
  },
  {
   "property": "C104",
   "status": "partial",
   "theorems": [
    "Verif.Props.copy_value",
    "Verif.Props.copy_else",
    "Verif.Props.copy_assign",
    "Verif.Props.copy_stays_partial",
    "Verif.Props.copy_stays_refuted"
   ],
   "note": "Proved: assignments to the attributes of the original never change the copy; nor does anything done by those who cannot reach the objects in its attributes. False as stated: the copy is shallow, a list or message within it changed through the original changes it (witness; the signature then fails)."
  },
  {
   "property": "C105",
   "status": "proved",
   "theorems": [
    "Verif.Props.relay_fixed",
    "Verif.Props.sent_fixed",
    "Verif.Props.relay_goes_on",
    "Verif.Props.first_relay"
   ],
   "note": "Decryption must refuse the empty string (true of ecies.decrypt). The first node may change a frame that was not made by the library (first_relay). Well-formed is Spec.WellTyped, with a header in the accepted range."
  },
  {
   "property": "C106",
   "status": "partial",
   "theorems": [
    "Verif.Props.verification_time_partial",
    "Verif.Props.verification_time_whole",
    "Verif.Props.verification_time_near",
    "Verif.Props.verification_time_enough",
    "Verif.Props.verification_time_raises",
    "Verif.Props.verification_time_incomplete",
    "Verif.Props.verification_time_refuted"
   ],
   "note": "Proved for sizes below 2^53 and every integer, bool or float deadline within the calendar, with all the errors otherwise. False as stated: load checks neither the size of a report nor the deadline of its task, so the time can be negative (also with the default deadline) or a TypeError (witnesses that are loaded). Sizes of whole seconds, also negative, are exact up to the limits of timedelta. For every other size that is a number, also negative, a float or 2^53 and more, the seconds are right up to the accuracy of doubles (2^-53 of them, or 2^-1075) before rounding up."
  },
  {
   "property": "C107",
   "status": "proved",
   "theorems": [
    "Verif.Props.accepted_iff_legible",
    "Verif.Props.illegible_refused",
    "Verif.Props.legible_carries",
    "Verif.Props.load_decision"
   ],
   "note": "Spec.LegibleFrame is written over the catalogue, which a tool extracts from the class bodies, and over the CBOR grammar. For the four classes that check the message as a whole, a frame can be read exactly if it carries a message, and load gives that message or refuses it; load_decision says which, for every class."
  },
  {
   "property": "C108",
   "status": "proved",
   "theorems": [
    "Verif.Props.loaded_as_read",
    "Verif.Props.load_iff_read",
    "Verif.Props.read_iff_carried",
    "Verif.Props.load_decision",
    "Verif.Props.read_unique"
   ],
   "note": "Spec.ReadsFrame is written over the catalogue and the CBOR grammar, as Spec.LegibleFrame of C107. For the four classes that check the message as a whole the message read is the one that is checked; load_decision decides all classes."
  },
  {
   "property": "C109",
   "status": "proved",
   "theorems": [
    "Verif.Props.dump_writes",
    "Verif.Props.written_payload",
    "Verif.Props.written_bytes",
    "Verif.Props.written_digest",
    "Verif.Props.written_once"
   ],
   "note": "WritesFrame (Spec/Writes.lean, Spec/Encoded.lean) is a relation over the catalogue; the payload codec is the modelled one of cbor 1.0.0"
  },
  {
   "property": "C11",
   "status": "proved",
   "theorems": [
    "Verif.Props.load_ignores_clock",
    "Verif.Props.load_freshness"
   ],
   "note": ""
  },
  {
   "property": "C110",
   "status": "proved",
   "theorems": [
    "Verif.Props.refused_iff",
    "Verif.Props.objection_iff"
   ],
   "note": "Spec.Refusal, Spec.Faults and Spec.Objection are relations over the catalogue and the CBOR grammar."
  },
  {
   "property": "C111",
   "status": "proved",
   "theorems": [
    "Verif.Props.record_fault",
    "Verif.Props.entries_fault",
    "Verif.Props.file_fault",
    "Verif.Props.fault_unique"
   ],
   "note": "Exceptions as the constructor of a message lets them through: a FieldError as it is, anything else as MessageError."
  },
  {
   "property": "C112",
   "status": "proved",
   "theorems": [
    "Verif.Props.unsent_fields",
    "Verif.Props.dump_raises",
    "Verif.Props.frame_or_not",
    "Verif.Props.failed_dump_keeps"
   ],
   "note": "Spec.Unsent is a relation over the catalogue; signing and encryption are parameters and their exceptions pass through."
  },
  {
   "property": "C113",
   "status": "partial",
   "theorems": [
    "Verif.Props.retry_unsigned",
    "Verif.Props.retry_unsigned_when",
    "Verif.Props.retry_refused",
    "Verif.Props.retry_keyless",
    "Verif.Props.retry_refuted"
   ],
   "note": "Refuted: the message keeps the signature of the failed attempt, so a second one with the key raises SignatureAlreadyExists (retry_refuted, retry_refused). Proved for failures before signing, and for repeating without the key."
  },
  {
   "property": "C114",
   "status": "proved",
   "theorems": [
    "Verif.Props.owners_ok",
    "Verif.Props.owners_raises",
    "Verif.Props.owners_one_fault",
    "Verif.Props.concent_key_needed",
    "Verif.Props.validate_ok",
    "Verif.Props.validate_raises",
    "Verif.Props.digest_raises",
    "Verif.Props.signature_raises",
    "Verif.Props.signing_raises"
   ],
   "note": "Spec.Owners is stated over the catalogue and the relations for what is sent; the accessor task_to_compute is the one of C32, the public-key recovery a parameter."
  },
  {
   "property": "C115",
   "status": "proved",
   "theorems": [
    "Verif.Props.concent_note_verdict",
    "Verif.Props.provider_note_verdict",
    "Verif.Props.both_notes_verdict",
    "Verif.Props.concent_note_signing",
    "Verif.Props.provider_note_signing",
    "Verif.Props.both_notes_signing",
    "Verif.Props.result_note_verdict",
    "Verif.Props.result_note_signing"
   ],
   "note": "Spec.Notes gives every outcome its own rule, with the hashed text written in digits; hash, signature, recovery and the requestor's address are parameters whose exceptions pass through."
  },
  {
   "property": "C116",
   "status": "partial",
   "theorems": [
    "Verif.Props.sign_both_or_none_partial",
    "Verif.Props.sign_both_or_none_refuted"
   ],
   "note": "Refuted: an offer without an address makes the second note fail after the first was signed, and the note for the Concent is then valid. Partial: either nothing changed, or exactly that signature was set and the provider's note is the one that failed."
  },
  {
   "property": "C117",
   "status": "proved",
   "theorems": [
    "Verif.Props.node_equal_iff",
    "Verif.Props.node_compare_raises",
    "Verif.Props.node_equality",
    "Verif.Props.node_made_attributes"
   ],
   "note": "Attributes are compared as Python compares values (C19)."
  },
  {
   "property": "C118",
   "status": "proved",
   "theorems": [
    "Verif.Props.cipher_refusal",
    "Verif.Props.cipher_refusal_kinds",
    "Verif.Props.short_cipher_made",
    "Verif.Props.seal_refusal",
    "Verif.Props.load_refuses_cipher"
   ],
   "note": "Lengths of digests and of the cipher's output are hypotheses (Spec.EciesEnv.Laws); what the curve accepts is a hypothesis where it is used. Ciphertexts that make decrypt raise AssertionError instead of DecryptionError need no secret; load turns them into DecryptionError."
  },
  {
   "property": "C119",
   "status": "proved",
   "theorems": [
    "Verif.Props.dump_key_trace",
    "Verif.Props.sign_key_trace",
    "Verif.Props.copy_key_trace",
    "Verif.Props.header_key_trace",
    "Verif.Props.ethsig_key_trace",
    "Verif.Props.notes_key_trace",
    "Verif.Props.result_note_key_trace",
    "Verif.Props.load_key_trace",
    "Verif.Props.header_digest"
   ],
   "note": "The digest is named in terms of the specification of what is written (PayloadOf, DigestOf, HeaderDigest, NoteHash). Keys are not empty for dump and load. What the external signing and encryption functions do with a key is their own."
  },
  {
   "property": "C12",
   "status": "partial",
   "theorems": [
    "Verif.Props.load_errors_partial",
    "Verif.Props.load_errors",
    "Verif.Props.loaded_slots_errors",
    "Verif.Props.verdict_error_refuted",
    "Verif.Props.ttc_error_refuted",
    "Verif.Props.payment_error_refuted",
    "Verif.Props.foreign_iff",
    "Verif.Props.foreign_kinds"
   ],
   "note": "foreign_iff says for every frame exactly when something else leaves load, and what. False for three classes whose checks read missing or wrongly typed fields (witnesses: SubtaskResultsAccepted, VerdictReportComputedTask, TaskToCompute); proved for all other frames and for all messages whose fields these checks can read."
  },
  {
   "property": "C120",
   "status": "proved",
   "theorems": [
    "Verif.Props.load_consults",
    "Verif.Props.load_without_sender"
   ],
   "note": "The two environments share the address parser and the library version. The recoveries are named: signature bytes and digest of the frame; ethsig and digest of the offer of the message that the frame reads as."
  },
  {
   "property": "C121",
   "status": "proved",
   "theorems": [
    "Verif.Props.owners_consult"
   ],
   "note": "for every pair of schemes that agree on these recoveries; the example has a scheme that accepts no other signature"
  },
  {
   "property": "C13",
   "status": "proved",
   "theorems": [
    "Verif.Props.loaded_names",
    "Verif.Props.loaded_values",
    "Verif.Props.irrelevant_pairs",
    "Verif.Props.no_underscore"
   ],
   "note": "conn_id of StartSessionResponse is the one field never read, see C17."
  },
  {
   "property": "C14",
   "status": "partial",
   "theorems": [
    "Verif.Props.dumped_message_slots_partial",
    "Verif.Props.undumpable_message_slot",
    "Verif.Props.enum_in_message_slot_refuted",
    "Verif.Props.loaded_message_slots",
    "Verif.Props.loaded_present_slot",
    "Verif.Props.bad_message_slot"
   ],
   "note": "An enumeration member put in a message slot is dumped as its text without any check, shown by a witness; proved for all other values."
  },
  {
   "property": "C15",
   "status": "proved",
   "theorems": [
    "Verif.Props.loaded_enum_slots",
    "Verif.Props.enum_slot_decision",
    "Verif.Props.enum_slot_round_trip"
   ],
   "note": ""
  },
  {
   "property": "C16",
   "status": "partial",
   "theorems": [
    "Verif.Props.dumped_loads_partial",
    "Verif.Props.empty_list_refuted"
   ],
   "note": "The empty list dumps but does not load, shown by a witness; non-empty lists of the declared class are restored in order."
  },
  {
   "property": "C17",
   "status": "partial",
   "theorems": [
    "Verif.Props.fields_survive_partial",
    "Verif.Props.conn_id_lost",
    "Verif.Props.conn_id_refuted"
   ],
   "note": "conn_id of StartSessionResponse is lost, shown by a witness; all other fields are restored."
  },
  {
   "property": "C18",
   "status": "partial",
   "theorems": [
    "Verif.Props.type_in_digest",
    "Verif.Props.loaded_type_partial",
    "Verif.Props.nested_type_refuted"
   ],
   "note": "Holds for the loaded message and for every message whose header names its own class, up to SHA-1 collisions. Refuted for nested messages: the header type of a nested message is never compared with the class of its slot, so a signed ForceGetTaskResult loads as an AckReportComputedTask whose signature verifies."
  },
  {
   "property": "C19",
   "status": "partial",
   "theorems": [
    "Verif.Props.eq_refl_partial",
    "Verif.Props.eq_symm",
    "Verif.Props.eq_trans",
    "Verif.Props.eq_ignores_encrypted",
    "Verif.Props.eq_distinguishes_partial",
    "Verif.Props.eq_complete",
    "Verif.Props.eq_content_refuted",
    "Verif.Props.eq_total_refuted",
    "Verif.Props.eq_nested_flag_refuted",
    "Verif.Props.wellTyped_comparable",
    "Verif.Props.wellTyped_equals_itself",
    "Verif.Props.wellTyped_symmetric",
    "Verif.Props.nested_equals_itself"
   ],
   "note": "Symmetry, transitivity and independence of the own encrypted flag hold for all messages. Not total: a message that cannot be dumped cannot be compared (eq_total_refuted). Equal messages can have different payload bytes, True against 1 (eq_content_refuted); for content of None, integers, text, bytes, lists and tuples equality is identity. The flag of a nested message counts (eq_nested_flag_refuted). Messages that hold what their class declares can always be compared, and equal themselves (wellTyped_*)."
  },
  {
   "property": "C20",
   "status": "proved",
   "theorems": [
    "Verif.Props.encryption_truthful"
   ],
   "note": "For signatures of 65 bytes, as produced by signing or by the zero signature."
  },
  {
   "property": "C21",
   "status": "proved",
   "theorems": [
    "Verif.Props.hello_trailer",
    "Verif.Props.hello_version_from_trailer",
    "Verif.Props.hello_bad_version",
    "Verif.Props.hello_version_signed",
    "Verif.Props.long_version_refuted"
   ],
   "note": "The round trip of the version holds up to 31 ASCII characters, as the property says."
  },
  {
   "property": "C22",
   "status": "partial",
   "theorems": [
    "Verif.Props.version_grammar",
    "Verif.Props.version_text_said",
    "Verif.Props.verify_version_decision",
    "Verif.Props.version_rejects_itself"
   ],
   "note": "the decision is characterised completely; an own version M.m.0-prerelease rejects everything, itself included"
  },
  {
   "property": "C23",
   "status": "proved",
   "theorems": [
    "Verif.Props.register_first",
    "Verif.Props.register_taken",
    "Verif.Props.register_inverse"
   ],
   "note": ""
  },
  {
   "property": "C24",
   "status": "proved",
   "theorems": [
    "Verif.Props.ecies_round_trip",
    "Verif.Props.ecies_encrypt_layout"
   ],
   "note": "laws of the primitives are explicit hypotheses"
  },
  {
   "property": "C25",
   "status": "proved",
   "theorems": [
    "Verif.Props.ecies_decrypt_decision",
    "Verif.Props.ecies_tamper"
   ],
   "note": "laws of the primitives are explicit hypotheses"
  },
  {
   "property": "C26",
   "status": "partial",
   "theorems": [
    "Verif.Props.ephem_expiry_partial",
    "Verif.Props.ephem_expiry_refuted",
    "Verif.Props.ephem_keys_separate"
   ],
   "note": "false in general: the cache is only cleared by the timeout check of the next call; witness schedule given"
  },
  {
   "property": "C27",
   "status": "partial",
   "theorems": [
    "Verif.Props.ckdf_length_partial",
    "Verif.Props.ckdf_length_refuted"
   ],
   "note": "true for the lengths used by the code, false beyond"
  },
  {
   "property": "C28",
   "status": "proved",
   "theorems": [
    "Verif.Props.ecdsa_verify_decision",
    "Verif.Props.ecdsa_key_unique",
    "Verif.Props.ecdsa_sign_verifies"
   ],
   "note": ""
  },
  {
   "property": "C29",
   "status": "proved",
   "theorems": [
    "Verif.Props.ownership_sound",
    "Verif.Props.ownership_sound_attrs",
    "Verif.Props.ownership_sound_loaded"
   ],
   "note": "For message trees whose slots hold what is declared (all loaded messages), and, attribute by attribute, for all trees."
  },
  {
   "property": "C30",
   "status": "proved",
   "theorems": [
    "Verif.Props.ownership_complete",
    "Verif.Props.role_match"
   ],
   "note": "Assumes the keys named in the chain are 64-byte hexadecimal keys and the contents can be serialised; without that the code raises other exceptions."
  },
  {
   "property": "C31",
   "status": "proved",
   "theorems": [
    "Verif.Props.role_mismatch",
    "Verif.Props.role_keys",
    "Verif.Props.role_match"
   ],
   "note": "An empty key counts as not given, as in the code."
  },
  {
   "property": "C32",
   "status": "partial",
   "theorems": [
    "Verif.Props.accessor_chain_partial",
    "Verif.Props.accessor_first",
    "Verif.Props.task_to_compute_first",
    "Verif.Props.chain_unique",
    "Verif.Props.accessor_skips_refuted"
   ],
   "note": "Full for task_to_compute. For the other accessors a TaskToCompute with an empty value is skipped in favour of a later one (witness), so the claim holds when the first one has a value."
  },
  {
   "property": "C33",
   "status": "partial",
   "theorems": [
    "Verif.Props.offer_unsigned_refuted",
    "Verif.Props.offer_covered_partial"
   ],
   "note": "The claim is false: the WantToComputeTask is not a TaskMessage and its signature is never checked (witness). It is only covered by the requestor's signature of the TaskToCompute."
  },
  {
   "property": "C34",
   "status": "partial",
   "theorems": [
    "Verif.Props.payment_window_partial",
    "Verif.Props.payment_float_partial",
    "Verif.Props.payment_infinite",
    "Verif.Props.payment_nan",
    "Verif.Props.loaded_payment",
    "Verif.Props.payment_missing",
    "Verif.Props.payment_decision",
    "Verif.Props.payment_error_refuted",
    "Verif.Props.payment_nan_refuted",
    "Verif.Props.payment_rounding_refuted"
   ],
   "note": "Which payment timestamps are accepted is decided for all values (payment_decision), with IEEE-754 doubles modelled bit by bit; for floats the rounding of the sum moves the far end of the window by at most 2^-18 seconds. False: a missing timestamp raises TypeError, a hugely negative one OverflowError, NaN is always accepted, and rounding can accept a timestamp just outside the window (witnesses)."
  },
  {
   "property": "C35",
   "status": "proved",
   "theorems": [
    "Verif.Props.rejection_decision",
    "Verif.Props.rejection_load",
    "Verif.Props.rejection_for_requestor"
   ],
   "note": "Same task means the ids compare equal with Python's ==. For a requestor the reason must not be None (else the code raises AttributeError while formatting its message)."
  },
  {
   "property": "C36",
   "status": "proved",
   "theorems": [
    "Verif.Props.verdict_consistent",
    "Verif.Props.verdict_decision",
    "Verif.Props.verdict_without_ttc"
   ],
   "note": "Equality is Message.__eq__ (C19). Two reports without any TaskToCompute also pass, shown by a witness."
  },
  {
   "property": "C37",
   "status": "partial",
   "theorems": [
    "Verif.Props.loaded_ttc_partial",
    "Verif.Props.task_decision",
    "Verif.Props.nested_ttc_refuted"
   ],
   "note": "Exactly these are accepted (task_decision). Holds for a TaskToCompute that is the loaded message itself; a TaskToCompute nested in another message is not checked at all (witness)."
  },
  {
   "property": "C38",
   "status": "proved",
   "theorems": [
    "Verif.Props.loaded_numbers",
    "Verif.Props.number_decision",
    "Verif.Props.concent_flag"
   ],
   "note": ""
  },
  {
   "property": "C39",
   "status": "proved",
   "theorems": [
    "Verif.Props.header_hash_ignores_signature",
    "Verif.Props.header_sign_verify",
    "Verif.Props.header_verify_decision",
    "Verif.Props.header_hash_covers",
    "Verif.Props.header_survives",
    "Verif.Props.header_digest"
   ],
   "note": "The key law of the signature scheme is a hypothesis of the sign/verify theorem; the coverage theorem concludes equal fields or an explicit SHA-1 collision."
  },
  {
   "property": "C40",
   "status": "proved",
   "theorems": [
    "Verif.Props.container_sound",
    "Verif.Props.container_complete",
    "Verif.Props.container_refuses",
    "Verif.Props.container_field_errors",
    "Verif.Props.container_round_trip",
    "Verif.Props.container_round_trip_plain"
   ],
   "note": "Container classes other than Node have no __eq__, so equality of containers is stated as the same class and fields."
  },
  {
   "property": "C41",
   "status": "proved",
   "theorems": [
    "Verif.Props.frozen_dict_history",
    "Verif.Props.assignment_decision",
    "Verif.Props.update_bypass_refuted",
    "Verif.Props.from_pairs",
    "Verif.Props.first_refused",
    "Verif.Props.given_or_refused",
    "Verif.Props.dict_as_pairs",
    "Verif.Props.peer_needs_all"
   ],
   "note": "Histories of item assignments, as the property says; dict.update bypasses the checks, shown by a witness. A Peer makes a node of a dict and needs all its keys; peer_needs_all assumes that None is no address."
  },
  {
   "property": "C42",
   "status": "proved",
   "theorems": [
    "Verif.Props.node_public_field",
    "Verif.Props.node_other_field",
    "Verif.Props.node_field_names",
    "Verif.Props.node_update_idempotent",
    "Verif.Props.node_super"
   ],
   "note": "Node.update_public_info and is_super_node, over every node."
  },
  {
   "property": "C43",
   "status": "partial",
   "theorems": [
    "Verif.Props.validator_decision",
    "Verif.Props.validate_port_partial",
    "Verif.Props.validate_port_refuted",
    "Verif.Props.validators_all"
   ],
   "note": "port 65535 is refused by the code"
  },
  {
   "property": "C44",
   "status": "partial",
   "theorems": [
    "Verif.Props.generated_id_checks",
    "Verif.Props.seeded_id_partial",
    "Verif.Props.short_seed_refuted",
    "Verif.Props.derived_id_checks",
    "Verif.Props.hex_seed_checks",
    "Verif.Props.uuid_grammar",
    "Verif.Props.id_check_decision",
    "Verif.Props.id_check_values",
    "Verif.Props.derived_id_exists",
    "Verif.Props.not_uuid_checks",
    "Verif.Props.uuid_text_refuted"
   ],
   "note": "false for seeds shorter than six bytes"
  },
  {
   "property": "C45",
   "status": "proved",
   "theorems": [
    "Verif.Props.uuid_bytes32",
    "Verif.Props.bytes32_uuid"
   ],
   "note": ""
  },
  {
   "property": "C46",
   "status": "partial",
   "theorems": [
    "Verif.Props.decode_hex_decision",
    "Verif.Props.hex_text_shape",
    "Verif.Props.encode_hex_partial",
    "Verif.Props.encode_hex_text",
    "Verif.Props.encode_hex_refuted"
   ],
   "note": "false for bytes whose text starts with 0x"
  },
  {
   "property": "C47",
   "status": "proved",
   "theorems": [
    "Verif.Props.promissory_layout",
    "Verif.Props.promissory_unambiguous",
    "Verif.Props.promissory_text_unambiguous",
    "Verif.Props.promissory_amount_refused",
    "Verif.Props.note_id_text_refuted"
   ],
   "note": "Stated on the bytes that are hashed, so addresses agree up to letter case of their text, and subtask ids as UUIDs (not as texts, note_id_text_refuted)."
  },
  {
   "property": "C48",
   "status": "proved",
   "theorems": [
    "Verif.Props.sig_valid_decision",
    "Verif.Props.sig_valid_refuses",
    "Verif.Props.note_sign_valid",
    "Verif.Props.note_binding",
    "Verif.Props.ttc_notes_sign_verify",
    "Verif.Props.ttc_notes_decision",
    "Verif.Props.ttc_notes_binding",
    "Verif.Props.ttc_notes_unsigned",
    "Verif.Props.srv_note_sign_verify",
    "Verif.Props.srv_note_decision",
    "Verif.Props.srv_note_unsigned"
   ],
   "note": "eth_account's hash, sign and recover are parameters; the key law is a hypothesis and binding concludes equality, an explicit hash collision, or a signature recovering to one address for two hashes."
  },
  {
   "property": "C49",
   "status": "proved",
   "theorems": [
    "Verif.Props.mask_generate",
    "Verif.Props.mask_increase",
    "Verif.Props.mask_decrease",
    "Verif.Props.mask_num_bits"
   ],
   "note": "for every sampler returning k distinct elements of the population"
  },
  {
   "property": "C50",
   "status": "proved",
   "theorems": [
    "Verif.Props.mask_matches_iff",
    "Verif.Props.mask_match_monotone",
    "Verif.Props.mask_empty_matches",
    "Verif.Props.mask_bits_bytes"
   ],
   "note": ""
  },
  {
   "property": "C51",
   "status": "partial",
   "theorems": [
    "Verif.Props.mask_for_task_partial",
    "Verif.Props.mask_for_task_huge_refuted",
    "Verif.Props.mask_for_task_rounding_refuted",
    "Verif.Props.rounded_exists"
   ],
   "note": "The division of ints to a double is modelled exactly; of the C library's log2 only accuracy is assumed. Proved up to 2^40 potential and 2^1000 desired workers; beyond that false: the division overflows or vanishes, and even a correctly rounded log2 gives too few bits at 2^53 (witnesses)."
  },
  {
   "property": "C52",
   "status": "partial",
   "theorems": [
    "Verif.Props.download_time_partial",
    "Verif.Props.download_time_refuted",
    "Verif.Props.download_underflow_refuted",
    "Verif.Props.download_time_monotone",
    "Verif.Props.download_time_zero_rate",
    "Verif.Props.download_time_limit",
    "Verif.Props.download_time_near",
    "Verif.Props.verification_time_partial",
    "Verif.Props.deposits"
   ],
   "note": "Exact ceiling proved below 2^53 bytes; the float division makes the exact claim false above that, shown by a witness; for every size and rate the seconds are right up to the accuracy of doubles (2^-53 of them, or 2^-1075) before rounding up, or an OverflowError beyond timedelta."
  },
  {
   "property": "C53",
   "status": "proved",
   "theorems": [
    "Verif.Props.copy_and_sign_unchanged",
    "Verif.Props.copy_and_sign_signed",
    "Verif.Props.copy_and_sign_unsigned",
    "Verif.Props.copy_and_sign_fails"
   ],
   "note": "Over a store of message objects, so that the original and the copy are distinct objects."
  },
  {
   "property": "C54",
   "status": "proved",
   "theorems": [
    "Verif.Props.loaded_tokens",
    "Verif.Props.file_entry_decision",
    "Verif.Props.bad_entry_refused",
    "Verif.Props.get_file_info",
    "Verif.Props.entry_category"
   ],
   "note": "A token whose payload has no files key has files None; get_file_info is then a TypeError in the code."
  },
  {
   "property": "C55",
   "status": "partial",
   "theorems": [
    "Verif.Props.codec_round_trip",
    "Verif.Props.codec_consumes",
    "Verif.Props.codec_prefix_free",
    "Verif.Props.codec_refuses",
    "Verif.Props.codec_errors",
    "Verif.Props.codec_decoder_terminates",
    "Verif.Props.codec_tuple_key_refuted"
   ],
   "note": "Tuple dict keys do not survive the codec, shown by a witness."
  },
  {
   "property": "C56",
   "status": "proved",
   "theorems": [
    "Verif.Props.slots_well_founded",
    "Verif.Props.declared_depth",
    "Verif.Props.load_depth",
    "Verif.Props.loader_unbounded"
   ],
   "note": "The recursion of the loader is by fuel in the model; loader_unbounded shows the fuel never runs out."
  },
  {
   "property": "C57",
   "status": "proved",
   "theorems": [
    "Verif.Props.received_passed_on",
    "Verif.Props.received_dumps",
    "Verif.Props.forwarded_same",
    "Verif.Props.forwarded_loads",
    "Verif.Props.loaded_wellTyped",
    "Verif.Props.gap_not_dumped",
    "Verif.Props.date_not_dumped"
   ],
   "note": "The next receiver must be able to decrypt, and decryption must refuse the empty string; gap_not_dumped and date_not_dumped show that the conditions on mandatory fields and points in time are needed. Frames of 2^57 bytes and more are left out where dump is shown to succeed."
  },
  {
   "property": "C58",
   "status": "partial",
   "theorems": [
    "Verif.Props.accepted_reverifies_partial",
    "Verif.Props.dumped_reverifies",
    "Verif.Props.reverify_refuted"
   ],
   "note": "Holds for every payload that is the encoding of the fields the receiver sees, in particular for everything dumped from a well-typed message. False for payloads with a field the receiver does not know (witness)."
  },
  {
   "property": "C59",
   "status": "proved",
   "theorems": [
    "Verif.Props.constructed_fields"
   ],
   "note": "Over all subsets of the declared fields; read-only properties are an arbitrary function."
  },
  {
   "property": "C60",
   "status": "partial",
   "theorems": [
    "Verif.Props.keywords_fill_gaps_partial",
    "Verif.Props.received_is_constructed",
    "Verif.Props.keyword_wins_refuted"
   ],
   "note": "All fields but conn_id of StartSessionResponse, where the keyword argument wins (witness). received_is_constructed identifies the constructor call of deserialize with the model's constructor."
  },
  {
   "property": "C61",
   "status": "partial",
   "theorems": [
    "Verif.Props.nothing_else_stored",
    "Verif.Props.unknown_keyword_refused_partial",
    "Verif.Props.class_attribute_ignored",
    "Verif.Props.property_ignored",
    "Verif.Props.property_refused",
    "Verif.Props.class_attribute_ignored_refuted"
   ],
   "note": "Nothing but fields is ever stored, and names the class does not have are refused. False for names of class attributes and methods, which are silently dropped (witness)."
  },
  {
   "property": "C62",
   "status": "partial",
   "theorems": [
    "Verif.Props.fresh_message_arrives_partial"
   ],
   "note": "For values of the declared kinds as in C02, so without conn_id of StartSessionResponse and without empty message lists; laws of cipher and signature length are hypotheses."
  },
  {
   "property": "C63",
   "status": "proved",
   "theorems": [
    "Verif.Props.generated_ids_distinct",
    "Verif.Props.generated_id_form",
    "Verif.Props.process_ids_distinct"
   ],
   "note": "uuid1's time stamp rule is modelled; the clock and the random clock sequence are arbitrary"
  },
  {
   "property": "C64",
   "status": "proved",
   "theorems": [
    "Verif.Props.container_schema",
    "Verif.Props.container_needs_record",
    "Verif.Props.loaded_containers",
    "Verif.Props.header_numbers"
   ],
   "note": "schemas are stated field by field, independently of the validator tables; port 65535 is not accepted (see C43); which values are IP addresses is a parameter"
  },
  {
   "property": "C65",
   "status": "proved",
   "theorems": [
    "Verif.Props.load_follows_catalogue",
    "Verif.Props.number_not_listed",
    "Verif.Props.not_optional",
    "Verif.Props.signed_as_listed",
    "Verif.Props.dump_follows_catalogue",
    "Verif.Props.owners_as_listed",
    "Verif.Props.accessors_as_listed"
   ],
   "note": "the catalogue (Spec/Catalogue.lean) is written by tools/check_tables.py from the class bodies in /repo, not from the model's tables"
  },
  {
   "property": "C66",
   "status": "partial",
   "theorems": [
    "Verif.Props.session_delivers_partial",
    "Verif.Props.session_seals",
    "Verif.Props.dump_encrypts_once",
    "Verif.Props.session_refines",
    "Verif.Props.encrypted_load_mac",
    "Verif.Props.encrypted_tamper"
   ],
   "note": "Delivery as in C02, so without conn_id of StartSessionResponse and empty message lists; laws of the primitives and agreement of the key pairs are hypotheses. The caches of ecdh and get_derived_keys change nothing (C77)."
  },
  {
   "property": "C67",
   "status": "partial",
   "theorems": [
    "Verif.Props.no_key_refuted",
    "Verif.Props.no_key_blank",
    "Verif.Props.no_key_signed_partial"
   ],
   "note": "False: a ciphertext starts with 04, which cbor reads as the int 4, and dict(4) fails silently, so a receiver without private key and sender key gets a message with no field set. With a sender key, classes that are signed are refused unless one signature fits two digests."
  },
  {
   "property": "C68",
   "status": "proved",
   "theorems": [
    "Verif.Props.address_decision",
    "Verif.Props.address_refuses",
    "Verif.Props.address_wellformed",
    "Verif.Props.address_spelling",
    "Verif.Props.address_injective",
    "Verif.Props.address_int_refuted"
   ],
   "note": "For all values and every hash function with 32-byte results. As a number, a key with a leading zero byte stands for fewer bytes and has another address (address_int_refuted)."
  },
  {
   "property": "C69",
   "status": "proved",
   "theorems": [
    "Verif.Props.note_hash_bytes",
    "Verif.Props.signed_message_injective",
    "Verif.Props.note_signer",
    "Verif.Props.note_binding_prims",
    "Verif.Props.requestor_notes_verify"
   ],
   "note": "Keccak and ECDSA are parameters with their laws as hypotheses."
  },
  {
   "property": "C70",
   "status": "partial",
   "theorems": [
    "Verif.Props.payer_is_signer_partial",
    "Verif.Props.payer_bytes_key",
    "Verif.Props.payer_refuted"
   ],
   "note": "Holds unless the key is sent as bytes: decode_hex reads bytes as digits, pubkey_to_address hashes them as they are."
  },
  {
   "property": "C71",
   "status": "partial",
   "theorems": [
    "Verif.Props.srv_note_verify_partial",
    "Verif.Props.srv_note_checksummed",
    "Verif.Props.srv_note_spelling_refuted"
   ],
   "note": "The code compares text: the note verifies exactly if the address is written in checksummed form."
  },
  {
   "property": "C72",
   "status": "partial",
   "theorems": [
    "Verif.Props.ip_decision",
    "Verif.Props.validate_ip_decision",
    "Verif.Props.ip_unambiguous",
    "Verif.Props.ip_versions",
    "Verif.Props.ip_versions_refuted",
    "Verif.Props.ip_not_text_refuted"
   ],
   "note": "For text the parser accepts exactly the grammar. False in two ways: numbers below 2^128, bools and packed bytes pass as well, and versions of Python differ on leading zeros (010.0.0.1); the versions are ordered (ip_versions)."
  },
  {
   "property": "C73",
   "status": "partial",
   "theorems": [
    "Verif.Props.eccx_outcome_unique",
    "Verif.Props.eccx_valid",
    "Verif.Props.eccx_given_partial",
    "Verif.Props.eccx_given_ends",
    "Verif.Props.eccx_generated",
    "Verif.Props.eccx_sign_verify",
    "Verif.Props.eccx_hangs_refuted",
    "Verif.Props.eccx_short_coordinate_refuted"
   ],
   "note": "A given key that coincurve and pyelliptic accept ends the loop exactly if it has 32 bytes; a shorter one hangs the constructor. A generated pair with a short coordinate is not tried again."
  },
  {
   "property": "C74",
   "status": "proved",
   "theorems": [
    "Verif.Props.message_signing",
    "Verif.Props.header_signing",
    "Verif.Props.header_not_message",
    "Verif.Props.signed_origin",
    "Verif.Props.header_origin",
    "Verif.Props.accepted_origin",
    "Verif.Props.evidence_origin"
   ],
   "note": "The colliding inputs, or the signature and digest of a forgery, are named in the statements. That the fields are those of the signed message needs that message to be well typed (WellTypedMsg); without it the payload bytes are those signed. SHA-1 digests have 20 bytes (hypothesis)."
  },
  {
   "property": "C75",
   "status": "partial",
   "theorems": [
    "Verif.Props.payload_decides",
    "Verif.Props.readdressed_refuted",
    "Verif.Props.published"
   ],
   "note": "False: the signature covers neither the receiver nor the flag, so whoever can read a message can seal it for a third party, who accepts it (readdressed_refuted), or publish it in clear (published). payload_decides says what load does depend on. Hello is left out."
  },
  {
   "property": "C76",
   "status": "proved",
   "theorems": [
    "Verif.Props.honest_accepted",
    "Verif.Props.honest_evidence"
   ],
   "note": "By induction over the exchange (Spec/Exchange.lean). The senders' messages are new and well typed and lead to a TaskToCompute; the signature law is a hypothesis about the key pairs."
  },
  {
   "property": "C77",
   "status": "proved",
   "theorems": [
    "Verif.Props.lru_transparent",
    "Verif.Props.lru_contents",
    "Verif.Props.caches_transparent"
   ],
   "note": "The primitives enter as key objects that see only the secret of a private key (KeyObjects.Of), as HashablePrivateKey hashes and compares it. Hash collisions and threads are not modelled."
  },
  {
   "property": "C78",
   "status": "partial",
   "theorems": [
    "Verif.Props.cleanup_partial",
    "Verif.Props.secrets_held",
    "Verif.Props.secret_forgotten",
    "Verif.Props.expired_key_held_refuted"
   ],
   "note": "False: the clean-up clears the cache of get_ephem_key only (cleanup_partial); ecdh's cache keeps the ephemeral private key and the agreed secret (expired_key_held_refuted). secrets_held says exactly what is held, secret_forgotten when a key is gone."
  },
  {
   "property": "C79",
   "status": "proved",
   "theorems": [
    "Verif.Props.replay_repeats",
    "Verif.Props.replay_window",
    "Verif.Props.replay_unlimited"
   ],
   "note": ""
  },
  {
   "property": "C80",
   "status": "proved",
   "theorems": [
    "Verif.Props.repr_loaded",
    "Verif.Props.repr_unshown_refuted"
   ],
   "note": "repr_unshown_refuted shows that the restriction to received messages is needed: Peers(peers=[1]) is built but repr raises AttributeError. The text itself is not modelled, only whether it can be made."
  },
  {
   "property": "C81",
   "status": "proved",
   "theorems": [
    "Verif.Props.payload_grammar",
    "Verif.Props.payload_refused",
    "Verif.Props.payload_unambiguous",
    "Verif.Props.payload_written",
    "Verif.Props.utf8_exact",
    "Verif.Props.floats_exact"
   ],
   "note": "The grammar is Spec.Item, with the deviations of the library listed there. It is the model's decoder that is shown to be this grammar; the cbor package itself is a dependency that was not available here (its behaviour is taken from its published source)."
  },
  {
   "property": "C82",
   "status": "proved",
   "theorems": [
    "Verif.Props.frame_size"
   ],
   "note": ""
  },
  {
   "property": "C83",
   "status": "proved",
   "theorems": [
    "Verif.Props.frame_identifies"
   ],
   "note": "Well-typed messages are those whose fields hold what their declarations say (Spec.WellTyped); for others the frame does not determine the message (see the findings on round trips)."
  },
  {
   "property": "C84",
   "status": "proved",
   "theorems": [
    "Verif.Props.load_volume"
   ],
   "note": "Measured by Spec.volume, which counts objects, characters, bytes and the octets of integers; the names of fields are not counted. Needs no assumption about the cryptographic primitives."
  },
  {
   "property": "C85",
   "status": "proved",
   "theorems": [
    "Verif.Props.fake_id_checks",
    "Verif.Props.fake_version_parses"
   ],
   "note": ""
  },
  {
   "property": "C86",
   "status": "partial",
   "theorems": [
    "Verif.Props.signed_task",
    "Verif.Props.given_arguments_stay",
    "Verif.Props.signed_task_refuted"
   ],
   "note": "signed_task covers calls with both key pairs. Without them the docstring's promise (all signed and consistent) does not hold: signed_task_refuted. Arguments below extra_data and resources are not modelled."
  },
  {
   "property": "C87",
   "status": "partial",
   "theorems": [
    "Verif.Props.clone_same",
    "Verif.Props.clone_hello",
    "Verif.Props.clone_received",
    "Verif.Props.clone_head",
    "Verif.Props.clone_override",
    "Verif.Props.verdict_same_report",
    "Verif.Props.clone_hello_refuted",
    "Verif.Props.clone_conn_id_refuted",
    "Verif.Props.clone_empty_list_refuted",
    "Verif.Props.clone_gap_refuted"
   ],
   "note": "False for a Hello of another version (its clone has the own version and the signature no longer verifies), for conn_id of StartSessionResponse, for empty lists of messages and for messages that lack a field (clone_message raises). Otherwise proved; sharing of mutable values is not modelled."
  },
  {
   "property": "C88",
   "status": "partial",
   "theorems": [
    "Verif.Props.made_definition",
    "Verif.Props.past_deadline_partial",
    "Verif.Props.past_deadline_refuted"
   ],
   "note": "Proved when no whole definition is given. When one is given it is kept, and past_deadline then makes a task that is not past its deadline (past_deadline_refuted)."
  },
  {
   "property": "C89",
   "status": "proved",
   "theorems": [
    "Verif.Props.made_ids",
    "Verif.Props.made_offer"
   ],
   "note": "a definition given as a whole must be a ComputeTaskDef; the hash has 32 bytes"
  },
  {
   "property": "C90",
   "status": "partial",
   "theorems": [
    "Verif.Props.argument_reaches",
    "Verif.Props.argument_lost_refuted"
   ],
   "note": "Proved for all fields but nine that hooks rewrite or that have no sub-factory (Spec.special); for two of these argument_lost_refuted shows that the argument is lost."
  },
  {
   "property": "C91",
   "status": "partial",
   "theorems": [
    "Verif.Props.sign_reaches_partial",
    "Verif.Props.sign_early",
    "Verif.Props.sign_reaches_refuted"
   ],
   "note": "Proved for all classes whose factories write nothing after signing. For the other six sign_early says what is signed instead, and sign_reaches_refuted shows signatures that do not verify."
  },
  {
   "property": "C92",
   "status": "partial",
   "theorems": [
    "Verif.Props.method_fields_partial",
    "Verif.Props.method_holds",
    "Verif.Props.payments_generated",
    "Verif.Props.method_payment",
    "Verif.Props.method_reason_refuted"
   ],
   "note": "Proved for all methods and fields except the reason of with_reject_report_computed_task (method_reason_refuted)."
  },
  {
   "property": "C93",
   "status": "partial",
   "theorems": [
    "Verif.Props.made_wellTyped",
    "Verif.Props.made_arrives",
    "Verif.Props.made_claim_refuted"
   ],
   "note": "Claims excludes payment claims whose list of acceptances is None, for which made_claim_refuted shows that the claim is false. The shared report of a verdict and the version of a Hello must not be given as arguments."
  },
  {
   "property": "C94",
   "status": "proved",
   "theorems": [
    "Verif.Props.token_fits",
    "Verif.Props.evidence_files",
    "Verif.Props.file_argument",
    "Verif.Props.node_argument",
    "Verif.Props.peer_argument",
    "Verif.Props.usual_values",
    "Verif.Props.usual_beginnings"
   ],
   "note": ""
  },
  {
   "property": "C95",
   "status": "proved",
   "theorems": [
    "Verif.Props.dump_succeeds",
    "Verif.Props.digest_succeeds",
    "Verif.Props.sent_arrives",
    "Verif.Props.sent_loads"
   ],
   "note": "Writable excludes values tagged 1 and texts, lists and integers that need lengths of more than 64 bits."
  },
  {
   "property": "C96",
   "status": "partial",
   "theorems": [
    "Verif.Props.factories_succeed",
    "Verif.Props.no_other_factories",
    "Verif.Props.methods_succeed",
    "Verif.Props.signed_task_succeeds",
    "Verif.Props.past_deadline_succeeds",
    "Verif.Props.peer_succeeds_partial",
    "Verif.Props.peer_succeeds_refuted"
   ],
   "note": "Proved for all factories of messages, nodes, headers, definitions and files; the factory of peers fails for the last port it draws (peer_succeeds_refuted)."
  },
  {
   "property": "C97",
   "status": "partial",
   "theorems": [
    "Verif.Props.made_loads",
    "Verif.Props.methods_load",
    "Verif.Props.signed_task_loads",
    "Verif.Props.past_deadline_loads",
    "Verif.Props.made_claim_refuted"
   ],
   "note": "Proved for every factory and class method but the two whose message cannot be dumped (made_claim_refuted)."
  },
  {
   "property": "C98",
   "status": "partial",
   "theorems": [
    "Verif.Props.release_text",
    "Verif.Props.release_version_partial",
    "Verif.Props.release_peers",
    "Verif.Props.release_file",
    "Verif.Props.release_build",
    "Verif.Props.release_build_refuted",
    "Verif.Props.release_cwd_refuted",
    "Verif.Props.release_fallback_refuted",
    "Verif.Props.release_hello_refuted"
   ],
   "note": "Proved for tags of semantic versions without build. False: commits after a tag with a build make a text that is no version, the argument cwd is not used for git, the file is not used where git fails (against the comment at the top of version.py), and the version can be too long for a Hello."
  },
  {
   "property": "C99",
   "status": "proved",
   "theorems": [
    "Verif.Props.password_key",
    "Verif.Props.password_collision",
    "Verif.Props.password_pair"
   ],
   "note": ""
  }
 ]
}