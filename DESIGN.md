# Formal model of golem-messages in Lean 4

The subject is `/repo/golem_messages` (Python) at the pinned commit.  The model is a
shallow, function-by-function transcription into total Lean functions; the properties
of `properties.jsonl` are theorems about it.

## Layout

| directory (`lean/Verif/`) | content |
|---|---|
| `Model/` | the transcription; every definition cites the file and lines it models and states its simplifications |
| `Spec/` | small independent definitions in which the properties are stated (field layouts, what a well-typed message is, what a role is, ...) |
| `Lemmas/` | helper lemmas (not claims) |
| `Props/` | the property theorems, each followed or preceded by examples that meet its hypotheses |

`MANIFEST.json` maps properties to theorems.  A theorem named `..._refuted` proves that the
code violates the property at a concrete witness; `..._partial` proves the part that holds
and its comment says what is missing.  `seeded/LOG.jsonl` records deliberately wrong
programs and the theorems that rejected them.

## How Python is modelled

* **Exceptions** are values of `Exc` (`Model/Exc.lean`); functions return
  `Except Exc α`.  The subclass relation is modelled as far as `except` clauses use it.
* **Python data** is the inductive type `Val` (`Model/Val.lean`): `None`, bool, unbounded
  int, float (its 64 bits), str (list of Unicode scalar values), bytes, list, tuple, dict
  (insertion-ordered), cbor `Tag`, enum members, containers, frozen dictionaries, masks
  and messages.
* **Mutable objects** are values; a method that mutates returns the new value.  Where
  aliasing matters (`copy_and_sign`) objects live in an explicit heap.  `Model/Objects.lean` models
  objects that hold references to each other, for the code that copies (C103, C104).
* **Message classes** are an enumeration `Cls` with tables transcribed from the class
  bodies (type number, slots, message slots, enum slots, flags, owners, id providers).
  Class hooks are functions matching on the class.
* **Time** and **randomness** are parameters (clock readings, ephemeral keys, IVs,
  `random.sample` choices); theorems quantify over all of them.
* **Effects** that a property mentions are recorded: `load` returns the log of the calls of
  the decryption function, the register, the key cache and dictionaries are state machines
  with histories.

## Trusted base

1. Lean 4.33.0's kernel.
2. The axioms `propext`, `Classical.choice`, `Quot.sound` and no others (no `sorry`,
   `native_decide`, `bv_decide`, no own axioms); per theorem see the end of this file.
3. The correspondence between the model and the Python source.  The code is not run here,
   so this is by reading; the citations are there to be checked.  For the class tables (types,
   slots, message and enum slots, flags, owners, id providers, container validators)
   `tools/check_tables.py` compares the model with the text of the class bodies; the catalogue
   of C65 and the names of C61 (`Spec/Names.lean`) are written by the same script from `/repo` alone.
4. The transcription of third-party and standard-library code that the repository does not
   contain: the `cbor` codec, `struct`, `binascii`, `uuid.UUID`/`uuid1`, `int(s, 16)`, the parser of `ipaddress`,
   `semantic_version` parsing and ranges, `functools.lru_cache`, `int.__truediv__`,
   IEEE-754 doubles (reading, comparison with ints, addition; round to nearest even),
   the time stamp rule of `uuid.uuid1` (never the same or an earlier one within a process).

### Parameters of the model (not modelled concretely)

* `Env`: SHA-1, SHA3-256, secp256k1 `sign_recoverable` and key recovery, `ipaddress.ip_address`
  (C72 instantiates it by a transcription of the parser, with the differences between Python
  versions as parameter), the library's own version text.
* `EciesEnv`: secp256k1 public key, ECDH, point compression, SHA-256, HMAC-SHA256,
  AES-128-CTR.
* `EthEnv`: `eth_account` message hash, signing and recovery, `pubkey_to_address` (C47, C48). For C68-C71
  it is instantiated by `EthPrims.env`, which leaves only Keccak-256 and ECDSA sign/recover as
  parameters and transcribes `eth_utils` 1.0.3 (`hexstr_if_str`, `to_bytes`, `to_checksum_address`)
  and `eth_account` 0.2.3 (`defunct_hash_message`, `recoverHash`) from knowledge of these versions
  (their source is not in the sandbox).
* `EccPrims` (C73): `coincurve`'s public point of a private key and `pyelliptic`'s `raw_check_key`; the
  pairs `pyelliptic` generates are an arbitrary sequence.  `pyelliptic.ECC.__init__` and
  `bitcoin.get_privkey_format` are transcribed from knowledge of these packages.
* Factories (C85-C97): what `faker` draws, new key pairs and the clock are parameters; how
  `factory_boy` 2.9.2 distributes arguments and orders hooks is transcribed from its documentation.
* `Mask.forTask`: the C library's `log2` (assumed exact at powers of two, monotone and accurate
  to `2^-42`); the division before it is modelled.

Theorems about signatures and encryption assume, as explicit hypotheses, the laws they
need of these (for example: a signature made with this key recovers to that public key);
each such hypothesis is met by a toy instance in an example.  Security reductions are
stated as explicit alternatives: equality of contents, *or* these two named inputs collide, *or*
this named signature fits this digest.  (That some collision exists is true of every hash function
with digests of fixed length, so an unnamed collision would say nothing.)

### Modelled

`register.py`, `serializer.py`, `shortcuts.py`, `validators.py`, `helpers.py`,
`idgenerator.py`, `exceptions.py`, `settings.py`, `utils.py`; of `constants.py` the values used by `helpers.py` and `MSG_DELAYS`;
`version.py` (git itself is a parameter);
`cryptography.py` (loading of OpenSSL, where what an import finds is a parameter; signatures, key pairs,
ECIES, key manager);
`datastructures/` (containers, frozen and validating dictionaries, nodes, peers, stats, task
headers, masks, promissory notes); `message/base.py`, `message/p2p.py`,
`message/resources.py`, `message/tasks.py`, `message/concents.py`: all registered classes
with their slots, hooks, constructors, signing, verification, validity,
ownership and promissory note methods; `factories/`: the factories of all messages with their
hooks and class methods, of task headers, task definitions, nodes, peers and files, the copying of
messages (`clone_message`, `override_timestamp`) and the helpers for ids and versions.

### Not modelled

of `factories/` (test data) the strategies other than `create`, and the values `faker`
may draw; the text of `__repr__` and logging; the `__x__` names of `object` as keyword arguments of constructors, and the
warning for a deserialized message without header (theorems about `dump` quantify over *any*
value of the model's message type, also what attribute assignment after construction can
build); memory exhaustion and Python's recursion
limit (a deeply nested payload raises `RecursionError`, which `serializer.loads` wraps);
threads; what happens to the fraction of a half or single precision NaN when it becomes a double.

### Checks of the model against the project's own tests

`Verif/Conformance` repeats unit tests of `/repo/tests` on the model, with Keccak-256, SHA-1 and
secp256k1 written out in `Conformance/Crypto.lean` (checked against known digests), and compares with
the values those tests expect.  Tests of whole messages use toy signatures where the value of a signature
does not matter, and the real ones in `Conformance/PromissoryNotes.lean`.  They are tests, on literals, of how faithful the model is.  No claim
rests on them and no property theorem uses these modules.  Left out are tests that only watch the calls of mocks,
that look at `repr`, and those of values the model does not have (`datetime`).

## Where the code and the properties disagree

Found while proving; each has a theorem with a witness unless marked *(by reading)*.

| property | finding |
|---|---|
| C02, C16 | a message with an empty list in a list slot dumps but cannot be loaded (`empty_list_refuted`) |
| C02, C17 | `conn_id` of `StartSessionResponse` is never restored: the constructor sets it before `load_slots`, which skips attributes that exist (`conn_id_refuted`) |
| C03 | a `TaskToCompute` built with a plain or incomplete dictionary as `compute_task_def` gets the missing keys at the receiver, so a nested signature no longer verifies (`nested_digest_refuted`) |
| C04, C21 | a `Hello` with a version longer than 31 characters does not verify with its own signature (`long_version_refuted`) |
| C06, C19 | the digest ignores the message's own `encrypted` flag but includes the flags of nested messages (`nested_flag_in_digest`, `eq_nested_flag_refuted`) |
| C12 | `load` lets foreign exceptions out: `SubtaskResultsAccepted` without `payment_ts` (`TypeError`) or with a huge one (`OverflowError`), `VerdictReportComputedTask` without its ack (`AttributeError`), `TaskToCompute` without offer, with malformed keys or without task definition; `foreign_iff` says exactly which frames give which |
| C14 | an enum member in a message slot is dumped as its text, unchecked (`enum_in_message_slot_refuted`) |
| C18 | the type in a nested header is never compared with the slot's class, so a signed message of one class is accepted as another (`nested_type_refuted`) |
| C19 | equality raises for messages that cannot be dumped, and `True == 1` makes equal messages with different digests (`eq_total_refuted`, `eq_content_refuted`) |
| C22 | an own version that is a pre-release of `x.y.0` rejects every version, itself included (`version_rejects_itself`); numbers may be written with the digits of any script, and a zero of another script may lead (`version_grammar`) |
| C26 | a cached ephemeral key can be used long after the timeout: only a cache miss triggers the clean-up (`ephem_expiry_refuted`) |
| C27 | `_ckdf` returns fewer bytes than asked for above 32 bytes for some lengths (`ckdf_length_refuted`) |
| C32 | accessors skip a `TaskToCompute` whose value is empty (`accessor_skips_refuted`) |
| C33 | the signature of the offer in a chain is never checked (`offer_unsigned_refuted`) |
| C34 | a payment timestamp that is NaN is accepted at any time (`payment_nan_refuted`); float rounding accepts some timestamps just outside the window (`payment_rounding_refuted`); a missing one is a `TypeError` |
| C37 | a nested `TaskToCompute` is not checked at all at load (`nested_ttc_refuted`) |
| C41 | `dict.update` bypasses validation and key checks (`update_bypass_refuted`) |
| C43 | port 65535 is refused (`validate_port_refuted`) |
| C44 | seeds shorter than six bytes are read as shorter numbers, so different seeds share ids (`short_seed_refuted`); one UUID has many texts (braces, `urn:`, underscores, signs, white space, digits of other scripts), all of them pass the check (`uuid_text_refuted`), and a promissory note is the same for all of them (`note_id_text_refuted`) |
| C46 | `encode_hex` never strips a `0x` prefix (it compares an int with bytes) and fails on empty input (`encode_hex_refuted`) |
| C51 | float `log2` gives too few bits for some counts from `2^53` on even if correctly rounded (`mask_for_task_rounding_refuted`); the division overflows or vanishes for astronomic counts (`mask_for_task_huge_refuted`) |
| C52 | the float division makes download times inexact above 2^53 bytes (`download_time_refuted`), and it vanishes at astronomic rates (`download_underflow_refuted`) |
| C55 | tuples come back as lists, so tuple keys of dictionaries do not survive (`codec_tuple_key_refuted`) |
| C57 | a message without a mandatory message slot loads but cannot be dumped again (`gap_not_dumped`) |
| C58 | `load` checks the signature over the received bytes, `verify_signature` over the fields it knows: a signed message with an unknown field is accepted but fails every later check (`reverify_refuted`) |
| C60 | `conn_id` of `StartSessionResponse` given as keyword argument replaces the one in the slots (`keyword_wins_refuted`) |
| C61 | a keyword argument with the name of a class attribute or method is silently dropped: `Ping(SIGN=True)` (`class_attribute_ignored_refuted`) |
| C67 | an encrypted frame read without the private key is not refused: the ciphertext starts with `04`, cbor reads it as the int 4, `dict(4)` is a swallowed `TypeError`, and the receiver gets a message with no field set (`no_key_refuted`) |
| C68 | `pubkey_to_address` of a number drops leading zero bytes of the key, so the address is another one (`address_int_refuted`) |
| C71 | the provider's note in `SubtaskResultsVerify` compares the recovered address with the text the provider gave; a valid address in another spelling than the checksummed one never verifies, even when signed with the right key (`srv_note_spelling_refuted`) |
| C70 | a `TaskToCompute` with its `requestor_ethereum_public_key` sent as bytes passes the check of `ethsig`, but its payer's address is that of the ASCII digits, which belongs to nobody (`payer_refuted`) |
| C72 | `validate_ipaddress` lets numbers, bools and packed bytes through as addresses (`ip_not_text_refuted`), and whether `010.0.0.1` is an address depends on the version of Python (`ip_versions_refuted`) |
| C73 | `ECCx(k)` with a private key shorter than 32 bytes that `coincurve` pads and accepts never returns (`eccx_hangs_refuted`); `ECCx(None)` tries again for a short private key only, a generated public key with a short coordinate ends in `CryptoError` (`eccx_short_coordinate_refuted`) |
| C75 | The receiver is not part of what is signed, and encryption needs no key of the sender: whoever can read an encrypted message can seal it for a third party, who accepts it as the sender's (`readdressed_refuted`), or publish it in clear (`published`) |
| C78 | the clean-up of expired ephemeral keys clears the cache of `get_ephem_key` only; the cache of `ecdh` keeps the ephemeral private key and the agreed secret until 1024 other agreements (`expired_key_held_refuted`) |
| C86 | `with_signed_nested_messages()` without key pairs signs nothing, and its header is of another requestor and has another task id, though the description promises "all signed and consistent" (`signed_task_refuted`) |
| C87 | `clone_message` of a `Hello` of another version has the own version, so the copied signature no longer verifies (`clone_hello_refuted`); it does not copy the `conn_id` of `StartSessionResponse` (`clone_conn_id_refuted`); it raises for a message with an empty list of messages (`clone_empty_list_refuted`) and for one that lacks a field (`clone_gap_refuted`) |
| C88 | `TaskToComputeFactory.past_deadline(compute_task_def=…)` makes a task that is not past its deadline: the given definition is kept and the deadline dropped without a word (`past_deadline_refuted`) |
| C90 | what is given to `VerdictReportComputedTaskFactory` for the report in its acknowledgement is lost: a copy of the other report takes its place; `ethsig=` of `TaskToComputeFactory` is ignored (`argument_lost_refuted`) |
| C91 | the inherited `sign` hook runs before the hooks of the class, so what those write is not signed: rejections and responses made with nested messages, payments, verdicts and tokens for downloads signed by their factories do not verify; `TaskToComputeFactory` redeclares `sign` for this reason (`sign_reaches_refuted`) |
| C92 | `ForceReportComputedTaskResponseFactory.with_reject_report_computed_task` tests `if 'reason' in kwargs` where its sibling tests `not in`: a given reason is overwritten, otherwise a random one is used (`method_reason_refuted`) |
| C93 | `ForcePaymentFactory()` and `ForcePaymentRejectedFactory()` without arguments leave the list of acceptances `None`, so their messages cannot be dumped (`made_claim_refuted`) |
| C96 | the factory of peers draws ports up to 65535, but `validate_port` refuses 65535, so one draw in 65535 raises (`peer_succeeds_refuted`) |
| C98 | `version.py` ignores its argument `cwd` when it asks git (`release_cwd_refuted`), does not fall back on `RELEASE-VERSION` as its comment says (`release_fallback_refuted`), makes a text that is no version after a tag with a build (`release_build_refuted`) and versions that are too long for a `Hello`, a hundred commits after the tag of its own example (`release_hello_refuted`) |
| C101 | `import pyelliptic` in a loop does nothing after the first time, so the second Homebrew directory (macOS) and the directory of a frozen program (Windows) are not tried if the first library lacks the cipher (`library_second_refuted`, `library_program_refuted`); on macOS libraries elsewhere, e.g. of MacPorts, are not used (`library_elsewhere_refuted`), an empty directory is an `IndexError` (`library_empty_directory`) |
| C102 | `ethsig__keys` of `TaskToComputeFactory` is ignored without an error when `requestor_ethereum_public_key` is given too: the task has no payment signature (`ethsig_keys_refuted`) |
| C104 | `copy_and_sign` copies the message but not the lists, dictionaries and messages in it (its docstring says so, and recommends it for messages that wait in a queue): a change of one of these through the original changes the signed copy, whose signature then does not verify (`copy_stays_refuted`) |
| C106 | `load` checks neither the size of a report nor the deadline of its task; a negative size or a deadline before the task (also the default deadline 0) gives a negative time for verification, a report without a size makes `subtask_verification_time` raise a `TypeError` (`verification_time_refuted`) |
| C113 | a message whose `dump` fails after signing (wrong key of the recipient) keeps the signature: a second `dump` with the private key, also to another recipient, raises `SignatureAlreadyExists` (`retry_refuted`); it has to be repeated without the key (`retry_keyless`) |
| C116 | `sign_all_promissory_notes` signs the note for the Concent first; if the provider's note then fails (the offer has no payment address), the call raises and the message keeps a valid note for the Concent (`sign_both_or_none_refuted`) |
| C118 | a ciphertext of 97 to 112 bytes with a right tag, which anyone who knows the public key can make, makes `ECIES.decrypt` raise `AssertionError` instead of `DecryptionError` (`short_cipher_made`); with assertions switched off (`python -O`) it would be deciphered; `load` reports `DecryptionError` |

Further observations *(visible in the model, no separate property)*: a list in a single slot, or
a single message in a list slot, dumps but does not load; `serialize` sets `encrypted` even if
it fails later; the all-zero signature of an unsigned dump blocks later signing; an empty
byte string as signature is kept and not replaced; a payload key that is left out gives `None`
without validation while an explicit `None` may be refused (`num_subtasks`); `struct`'s `?`
reads any non-zero byte as true; the digest uses the header's type but the frame the class's;
`Peer()` without arguments fails its own validation; containers other than `Node` compare by
identity; `get_file_info` on a token without `files` is a `TypeError`;
`is_valid_for_requestor` with reason `None` is an `AttributeError`; a missing concent key for a
class owned by the concent is a `TypeError`.

## Status per property

| id | title | status |
|----|-------|--------|
| C01 | Wire header round trip | proved |
| C02 | dump/load round trip | partial |
| C03 | Signatures survive nesting | partial |
| C04 | A signed dump verifies for its signer | partial |
| C05 | load with a sender key authenticates | proved |
| C06 | The signed digest binds type, timestamp and payload | partial |
| C07 | Existing signatures are never overwritten | proved |
| C08 | Unsigned traffic | proved |
| C09 | Short frames are refused | proved |
| C10 | Header gate before payload work | proved |
| C11 | Freshness window | proved |
| C12 | load fails only with MessageError | partial |
| C13 | Loaded fields are exactly the declared ones | proved |
| C14 | Typed message slots | partial |
| C15 | Enum slots | proved |
| C16 | Everything that can be dumped can be loaded: list slots | partial |
| C17 | No field is lost on the wire | partial |
| C18 | A message accepted under a class was signed as that class | partial |
| C19 | Message equality | partial |
| C20 | Encryption flag is truthful | proved |
| C21 | Hello carries and signs its version | proved |
| C22 | Version compatibility | partial |
| C23 | Message register | proved |
| C24 | ECIES round trip | proved |
| C25 | ECIES integrity | proved |
| C26 | Ephemeral keys expire | partial |
| C27 | Key derivation output length | partial |
| C28 | Signature primitive decision | proved |
| C29 | Ownership chain soundness | proved |
| C30 | Ownership chain completeness | proved |
| C31 | Role keys | proved |
| C32 | Task accessors | partial |
| C33 | The provider's offer in the chain is authenticated | partial |
| C34 | Payment timestamp window | partial |
| C35 | Rejection reasons | proved |
| C36 | Verdict consistency | proved |
| C37 | A loaded TaskToCompute is internally authenticated | partial |
| C38 | Numeric fields of offers and tasks | proved |
| C39 | Task header signature | proved |
| C40 | Container discipline | proved |
| C41 | Frozen and validating dictionaries | proved |
| C42 | Node public info | proved |
| C43 | Validator acceptance sets | partial |
| C44 | Seeded ids | partial |
| C45 | UUID to bytes32 | proved |
| C46 | Hex helpers | partial |
| C47 | Promissory note message is unambiguous | proved |
| C48 | Promissory note signing | proved |
| C49 | Mask bit counts | proved |
| C50 | Mask matching is monotone | proved |
| C51 | Mask for a task | partial |
| C52 | Time and deposit helpers | partial |
| C53 | copy_and_sign | proved |
| C54 | File transfer tokens | proved |
| C55 | Payload codec round trip | partial |
| C56 | Message tree depth is bounded by class declarations | proved |
| C57 | Received messages survive being passed on | proved |
| C58 | Accepted signatures can be checked again | partial |
| C59 | Constructors keep what they are given | proved |
| C60 | Keyword arguments only fill gaps | partial |
| C61 | Unknown keyword arguments are refused | partial |
| C62 | Fresh messages arrive | partial |
| C63 | Generated ids are canonical and distinct | proved |
| C64 | Containers are built exactly from conforming data | proved |
| C65 | Messages follow the catalogue | proved |
| C66 | Encrypted sessions deliver | partial |
| C67 | No access without the private key | partial |
| C68 | Ethereum addresses of keys | proved |
| C69 | What a promissory note signature covers and who made it | proved |
| C70 | The payer is who signed the task | partial |
| C71 | The spelling of the provider's address does not matter | partial |
| C72 | IP address validation | partial |
| C73 | Key pair construction | partial |
| C74 | Accepted content was signed by the key holder | proved |
| C75 | Who a message is for | partial |
| C76 | Honest exchanges are accepted and stand as evidence | proved |
| C77 | Caches of the key manager change no result | proved |
| C78 | The clean-up discards expired ephemeral keys | partial |
| C79 | Replayed frames | proved |
| C80 | Received messages can be shown | proved |
| C81 | Payloads are read as RFC 7049 says | proved |
| C82 | Length of frames | proved |
| C83 | A frame determines its message | proved |
| C84 | Received messages hold at most a multiple of their frame | proved |
| C85 | Made-up ids and versions are valid | proved |
| C86 | Tasks made with both key pairs are signed and consistent throughout | partial |
| C87 | A clone is the message it was made from | partial |
| C88 | Made tasks have the deadline asked for | partial |
| C89 | Made tasks and offers have the ids and keys asked for | proved |
| C90 | Arguments of factories reach the messages they are for | partial |
| C91 | A key given to a factory signs the message it is for | partial |
| C92 | Class methods of factories do what their names say | partial |
| C93 | What factories make is well formed and can be sent | partial |
| C94 | Tokens, nodes and usual values in made messages fit them | proved |
| C95 | A message that holds what its class declares can be sent and arrives | proved |
| C96 | Factories always make a message | partial |
| C97 | What factories make passes the checks of its class and loads | partial |
| C98 | The computed version of the library is a version other nodes accept | partial |
| C99 | Keys from passwords | proved |
| C100 | Delayed messages are in time | proved |
| C101 | The cipher library is found where the code looks for it | partial |
| C102 | Made tasks carry the payment signature asked for | partial |
| C103 | Dictionaries and nodes made from defaults are independent | proved |
| C104 | A signed copy is not changed through the original | partial |
| C105 | Frames that are passed on do not change | proved |
| C106 | Time for the verification of a report | partial |
| C107 | Which frames are accepted | proved |
| C108 | What an accepted frame is read as | proved |
| C109 | What a message becomes on the wire | proved |
| C110 | Why a frame is refused | proved |
| C111 | What is wrong with a record | proved |
| C112 | Why a message cannot be sent | proved |
| C113 | A dump that failed can be repeated | partial |
| C114 | What checking the owners of a task message says | proved |
| C115 | What signing and checking promissory notes says | proved |
| C116 | Both promissory notes are signed, or none | partial |
| C117 | Comparing nodes | proved |
| C118 | Why a ciphertext is refused | proved |
| C119 | Private keys leave no trace but signatures | proved |
| C120 | Which signatures are looked at on arrival | proved |
| C121 | Which signatures are looked at when owners are checked | proved |

## Axioms per theorem

* **none**: `min_is_2010`, `no_underscore`, `download_time_refuted`, `download_underflow_refuted`, `download_time_zero_rate`, `eccx_short_coordinate_refuted`
* **propext**: `header_decision`, `digest_ignores_flag`, `nested_flag_in_digest`, `library_second_refuted`, `library_elsewhere_refuted`, `library_program_refuted`, `library_empty_directory`, `ecdsa_verify_decision`, `ecdsa_key_unique`, `ecdsa_sign_verifies`, `chain_unique`, `validate_port_refuted`, `validators_all`, `uuid_text_refuted`, `promissory_amount_refused`, `note_id_text_refuted`, `mask_for_task_huge_refuted`, `slots_well_founded`, `ip_versions_refuted`, `eccx_outcome_unique`, `lru_transparent`, `release_file`, `release_fallback_refuted`, `password_key`
* **propext, Classical.choice, Quot.sound**: `header_round_trip`, `header_decode_encode`, `dump_load_roundtrip_partial`, `signed_roundtrip_partial`, `wellTyped_slots`, `nested_digest_partial`, `signed_dump_verifies`, `signed_dump_other_key`, `load_authenticates`, `load_key_filters`, `digest_binds`, `digest_binds_plain`, `load_77`, `load_header_gate`, `load_worked_gate`, `load_decrypt_calls`, `delayed_in_time`, `ethsig_args`, `ethsig_privkey`, `ethsig_keys_partial`, `ethsig_drawn`, `ethsig_none`, `relay_fixed`, `sent_fixed`, `relay_goes_on`, `verification_time_partial`, `verification_time_whole`, `verification_time_near`, `verification_time_enough`, `verification_time_raises`, `verification_time_incomplete`, `accepted_iff_legible`, `illegible_refused`, `legible_carries`, `load_decision`, `loaded_as_read`, `load_iff_read`, `read_iff_carried`, `read_unique`, `dump_writes`, `written_payload`, `written_bytes`, `written_digest`, `written_once`, `load_freshness`, `refused_iff`, `objection_iff`, `record_fault`, `entries_fault`, `file_fault`, `fault_unique`, `unsent_fields`, `dump_raises`, `frame_or_not`, `failed_dump_keeps`, `retry_unsigned`, `retry_unsigned_when`, `retry_refused`, `retry_keyless`, `owners_ok`, `owners_raises`, `owners_one_fault`, `concent_key_needed`, `validate_ok`, `validate_raises`, `digest_raises`, `signature_raises`, `signing_raises`, `concent_note_verdict`, `provider_note_verdict`, `both_notes_verdict`, `concent_note_signing`, `provider_note_signing`, `both_notes_signing`, `result_note_verdict`, `result_note_signing`, `sign_both_or_none_partial`, `node_equal_iff`, `node_equality`, `cipher_refusal`, `cipher_refusal_kinds`, `short_cipher_made`, `load_refuses_cipher`, `dump_key_trace`, `sign_key_trace`, `copy_key_trace`, `header_key_trace`, `ethsig_key_trace`, `notes_key_trace`, `result_note_key_trace`, `load_key_trace`, `header_digest`, `load_errors_partial`, `load_errors`, `loaded_slots_errors`, `foreign_iff`, `foreign_kinds`, `load_consults`, `load_without_sender`, `owners_consult`, `loaded_names`, `loaded_values`, `undumpable_message_slot`, `loaded_message_slots`, `loaded_present_slot`, `loaded_enum_slots`, `dumped_loads_partial`, `fields_survive_partial`, `conn_id_lost`, `type_in_digest`, `loaded_type_partial`, `eq_refl_partial`, `eq_symm`, `eq_trans`, `eq_complete`, `wellTyped_comparable`, `wellTyped_equals_itself`, `wellTyped_symmetric`, `nested_equals_itself`, `encryption_truthful`, `hello_version_from_trailer`, `hello_bad_version`, `version_grammar`, `version_text_said`, `verify_version_decision`, `version_rejects_itself`, `register_first`, `register_taken`, `register_inverse`, `ecies_round_trip`, `ecies_decrypt_decision`, `ecies_tamper`, `ephem_expiry_refuted`, `ckdf_length_partial`, `ownership_sound_loaded`, `ownership_complete`, `accessor_chain_partial`, `accessor_first`, `task_to_compute_first`, `payment_window_partial`, `payment_float_partial`, `payment_infinite`, `payment_nan`, `loaded_payment`, `payment_missing`, `payment_decision`, `rejection_load`, `rejection_for_requestor`, `verdict_consistent`, `verdict_decision`, `loaded_ttc_partial`, `task_decision`, `loaded_numbers`, `concent_flag`, `header_hash_covers`, `header_survives`, `container_complete`, `frozen_dict_history`, `assignment_decision`, `from_pairs`, `first_refused`, `given_or_refused`, `peer_needs_all`, `validator_decision`, `validate_port_partial`, `generated_id_checks`, `seeded_id_partial`, `short_seed_refuted`, `derived_id_checks`, `uuid_grammar`, `id_check_decision`, `id_check_values`, `derived_id_exists`, `not_uuid_checks`, `uuid_bytes32`, `hex_text_shape`, `promissory_layout`, `promissory_unambiguous`, `promissory_text_unambiguous`, `sig_valid_decision`, `sig_valid_refuses`, `note_sign_valid`, `note_binding`, `ttc_notes_sign_verify`, `ttc_notes_decision`, `ttc_notes_binding`, `srv_note_sign_verify`, `srv_note_decision`, `mask_generate`, `mask_increase`, `mask_decrease`, `mask_match_monotone`, `mask_bits_bytes`, `mask_for_task_partial`, `mask_for_task_rounding_refuted`, `rounded_exists`, `download_time_partial`, `download_time_monotone`, `download_time_limit`, `download_time_near`, `loaded_tokens`, `file_entry_decision`, `bad_entry_refused`, `codec_round_trip`, `codec_consumes`, `codec_prefix_free`, `codec_decoder_terminates`, `load_depth`, `loader_unbounded`, `received_passed_on`, `received_dumps`, `forwarded_same`, `forwarded_loads`, `loaded_wellTyped`, `accepted_reverifies_partial`, `dumped_reverifies`, `constructed_fields`, `keywords_fill_gaps_partial`, `fresh_message_arrives_partial`, `generated_ids_distinct`, `generated_id_form`, `process_ids_distinct`, `container_schema`, `container_needs_record`, `loaded_containers`, `load_follows_catalogue`, `number_not_listed`, `not_optional`, `signed_as_listed`, `dump_follows_catalogue`, `owners_as_listed`, `accessors_as_listed`, `session_delivers_partial`, `encrypted_load_mac`, `encrypted_tamper`, `no_key_refuted`, `no_key_blank`, `no_key_signed_partial`, `address_decision`, `address_refuses`, `address_spelling`, `address_injective`, `address_int_refuted`, `note_hash_bytes`, `signed_message_injective`, `note_signer`, `note_binding_prims`, `requestor_notes_verify`, `payer_is_signer_partial`, `payer_bytes_key`, `payer_refuted`, `srv_note_verify_partial`, `srv_note_checksummed`, `srv_note_spelling_refuted`, `ip_decision`, `validate_ip_decision`, `ip_unambiguous`, `ip_versions`, `ip_not_text_refuted`, `eccx_given_partial`, `eccx_given_ends`, `eccx_generated`, `eccx_sign_verify`, `eccx_hangs_refuted`, `header_not_message`, `signed_origin`, `header_origin`, `accepted_origin`, `evidence_origin`, `payload_decides`, `readdressed_refuted`, `published`, `honest_accepted`, `honest_evidence`, `replay_repeats`, `replay_window`, `replay_unlimited`, `repr_loaded`, `payload_grammar`, `payload_refused`, `payload_unambiguous`, `payload_written`, `utf8_exact`, `floats_exact`, `frame_identifies`, `load_volume`, `fake_id_checks`, `fake_version_parses`, `signed_task`, `clone_same`, `clone_hello`, `clone_received`, `clone_override`, `verdict_same_report`, `clone_hello_refuted`, `made_definition`, `past_deadline_partial`, `made_ids`, `made_offer`, `argument_reaches`, `sign_reaches_partial`, `sign_early`, `method_fields_partial`, `method_holds`, `payments_generated`, `method_payment`, `made_wellTyped`, `made_arrives`, `made_claim_refuted`, `token_fits`, `evidence_files`, `file_argument`, `node_argument`, `peer_argument`, `usual_values`, `usual_beginnings`, `dump_succeeds`, `digest_succeeds`, `sent_arrives`, `sent_loads`, `factories_succeed`, `methods_succeed`, `signed_task_succeeds`, `past_deadline_succeeds`, `peer_succeeds_partial`, `made_loads`, `methods_load`, `signed_task_loads`, `past_deadline_loads`, `release_text`, `release_version_partial`, `release_peers`, `release_build`, `release_build_refuted`, `password_collision`, `password_pair`
* **propext, Quot.sound**: `header_layout`, `conn_id_refuted`, `empty_list_refuted`, `nested_digest_refuted`, `long_version_refuted`, `signature_ignores_recipient`, `resign_refused`, `existing_signature_emitted`, `signature_never_overwritten`, `first_dump_fixes_signature`, `unsigned_dump`, `unsigned_load`, `load_short`, `max_is_3010`, `answer_first`, `library_in_use`, `library_linux`, `library_macos_partial`, `library_windows_partial`, `paid_verifies`, `ethsig_keys_refuted`, `defaults_kept`, `dict_value`, `fresh_definition`, `fresh_usage`, `dict_reach`, `dict_alone`, `node_value`, `fresh_node`, `node_reach`, `node_alone`, `copy_value`, `copy_else`, `copy_assign`, `copy_stays_partial`, `copy_stays_refuted`, `first_relay`, `verification_time_refuted`, `load_ignores_clock`, `retry_refuted`, `sign_both_or_none_refuted`, `node_compare_raises`, `node_made_attributes`, `seal_refusal`, `verdict_error_refuted`, `ttc_error_refuted`, `payment_error_refuted`, `irrelevant_pairs`, `dumped_message_slots_partial`, `enum_in_message_slot_refuted`, `bad_message_slot`, `enum_slot_decision`, `enum_slot_round_trip`, `nested_type_refuted`, `eq_ignores_encrypted`, `eq_distinguishes_partial`, `eq_content_refuted`, `eq_total_refuted`, `eq_nested_flag_refuted`, `hello_trailer`, `hello_version_signed`, `ecies_encrypt_layout`, `ephem_expiry_partial`, `ephem_keys_separate`, `ckdf_length_refuted`, `ownership_sound`, `ownership_sound_attrs`, `role_match`, `role_mismatch`, `role_keys`, `accessor_skips_refuted`, `offer_unsigned_refuted`, `offer_covered_partial`, `payment_nan_refuted`, `payment_rounding_refuted`, `rejection_decision`, `verdict_without_ttc`, `nested_ttc_refuted`, `number_decision`, `header_hash_ignores_signature`, `header_sign_verify`, `header_verify_decision`, `container_sound`, `container_refuses`, `container_field_errors`, `container_round_trip`, `container_round_trip_plain`, `update_bypass_refuted`, `dict_as_pairs`, `node_public_field`, `node_other_field`, `node_field_names`, `node_update_idempotent`, `node_super`, `hex_seed_checks`, `bytes32_uuid`, `decode_hex_decision`, `encode_hex_partial`, `encode_hex_text`, `encode_hex_refuted`, `ttc_notes_unsigned`, `srv_note_unsigned`, `mask_num_bits`, `mask_matches_iff`, `mask_empty_matches`, `deposits`, `copy_and_sign_unchanged`, `copy_and_sign_signed`, `copy_and_sign_unsigned`, `copy_and_sign_fails`, `get_file_info`, `entry_category`, `codec_refuses`, `codec_errors`, `codec_tuple_key_refuted`, `declared_depth`, `gap_not_dumped`, `date_not_dumped`, `reverify_refuted`, `received_is_constructed`, `keyword_wins_refuted`, `nothing_else_stored`, `unknown_keyword_refused_partial`, `class_attribute_ignored`, `property_ignored`, `property_refused`, `class_attribute_ignored_refuted`, `header_numbers`, `session_seals`, `dump_encrypts_once`, `session_refines`, `address_wellformed`, `eccx_valid`, `message_signing`, `header_signing`, `lru_contents`, `caches_transparent`, `cleanup_partial`, `secrets_held`, `secret_forgotten`, `expired_key_held_refuted`, `repr_unshown_refuted`, `frame_size`, `given_arguments_stay`, `signed_task_refuted`, `clone_head`, `clone_conn_id_refuted`, `clone_empty_list_refuted`, `clone_gap_refuted`, `past_deadline_refuted`, `argument_lost_refuted`, `sign_reaches_refuted`, `method_reason_refuted`, `no_other_factories`, `peer_succeeds_refuted`, `release_cwd_refuted`, `release_hello_refuted`

