# Formal model of rust-bitcoin in Lean 4 — design

## Trusted base

* Lean 4.33.0's kernel. Every theorem listed in `MANIFEST.json` depends on at most the standard axioms
  `propext`, `Classical.choice` and `Quot.sound`. There are no axioms of our own, no `sorry`, no
  `native_decide`, no `bv_decide`, no `implemented_by`. `decide` and `decide +kernel` are used for closed
  facts (tables, all 256 values of a byte, worked examples) and are checked by the kernel.
* The hand translation of the Rust sources at the pinned commit into Lean definitions. Each definition
  cites file and lines. The Rust compiler, `core`/`std`/`alloc`, the allocator and the CPU are outside the
  model; library calls (`sort`, `dedup`, `BTreeSet`, `BinaryHeap`, slices, integer methods) are modelled by
  their documented behaviour.
* The specifications the code is compared with: FIPS 180-4, FIPS 202, RFC 2104, RFC 3174, RFC 5869,
  RFC 8439, the RIPEMD-160 and SipHash papers, BIP-16/32/34/37/49/68/94/113/141/143/144/152/155/157/158/173,
  BIP-324, BIP-340/341/342 and the consensus rules of Bitcoin Core, each transcribed independently of the
  model (`Hashes/*Spec.lean`, and definitions at the head of the `Props` files).
* Cryptographic primitives are never assumed to be collision free. They are parameters (an arbitrary
  function), or a proved model of the code's own engine; a claim that needs collision resistance has the
  form "the conclusion, or two of these strings collide", where the strings are listed: they are the
  finitely many strings hashed by the calls the theorem is about. (That some collision exists is true of
  every function into 32 bytes and would say nothing.)
* secp256k1 is not modelled. It is a structure (`Crypto/Secp.lean`, `Taproot.Secp`) whose fields are the
  operations the code calls and the laws used about them; a toy instance shows the laws are consistent.

## Modelling conventions

* Byte strings are `List UInt8`; fixed-width integers are `UInt8/16/32/64`, or `Nat`/`Int` with an explicit
  range check wherever the Rust code does checked or wrapping arithmetic. `usize` is 64 bits wide.
* Arithmetic that can overflow in the code is either an explicit panic (overflow checks on) or an explicit
  wrap (checks off); where the two differ both are modelled with a flag or the difference is a finding.
* `&mut self` becomes a returned new state. `Result`/`Option` stay data. A panic is an explicit error value,
  never a junk default.
* Decoders are state machines `push : State → Bytes → Except Err (State × Bytes × Status)`,
  `fin : State → Except Err α`, `limit : State → Nat`, as in the trait of `consensus_encoding`. The state
  after an error is not modelled (using a failed decoder panics in the code).
* Errors are data (tag and payload) where they can be observed; the texts they print are modelled in C111–C122 and C124–C126, of wrapping errors only the innermost text.
* Loops are structural recursion, or recursion on fuel with a proof that the fuel suffices.
* `unsafe` code is modelled by the reads and writes it performs (ArrayVec slots, SipHash loads).

## Layout

`lean/Verif/<area>/*.lean` hold the translation of the code and its lemmas, `lean/Verif/Props/Cnn*.lean` the
property theorems (named `Cnn_…`) and, beside them, examples that meet their hypotheses.
`seeded/LOG.jsonl` records the mutations of the model that were tried and which theorems rejected them.

## What is modelled, crate by crate

| crate | modelled | not modelled |
|-------|----------|--------------|
| `consensus_encoding` | compact sizes, all decoders, encoders and combinators, all drivers, byte iterator, capacity growth, `serde_as_consensus` | headings of wrapping errors |
| `io` | `Read`, `BufRead`, `Write`, `Take`, `Cursor`, `Sink`, slices, `read_to_limit`, `decode_from_read*`, `drain_to_writer`, `hash_reader`, the bridge to `std` | error formatting |
| `internals` | `ArrayVec`, slices and arrays, hex/`parse_int` helpers through their users | `const` helpers; macros only through the types they define |
| `units` | amounts (text, arithmetic, fees, fee rates, weights), lock times, sequences, compact targets, targets, work, `U256` (with its conversion to `f64`), conversions of amounts to and from `f64` (the standard library's decimal texts of doubles are parameters), operators on `NumOpResult`, serde, `Arbitrary`, `Debug` of amounts, sequences and absolute lock times | `Debug` of the other types |
| `primitives` | transactions, witnesses, headers, blocks, block validation, merkle trees, scripts, script hashes as byte strings, out point text, serde, `Debug` of witnesses | `Debug` of the other types |
| `bitcoin` | BIP-158, sizes and weights, weight prediction, script instructions, numbers, templates, sigops, pow retargeting, taproot trees, sighash, signed messages, genesis blocks, network parameters, BIP-34 heights, segwit and taproot witnesses | `address.rs` extension glue; the C++ library behind `consensus_validation` (a parameter of C85) |
| `p2p` | every message payload, v1/v2 framing, BIP-152, partial merkle trees, the texts of errors | `Display`s other than of errors, commands and networks |
| `hashes` | SHA-1, SHA-2 family, SHA3-256, RIPEMD-160, SipHash, HMAC, HKDF, tagged hashes, constant-time compare, the SSE4.1, AVX2, SHA-NI and ARM code paths of SHA-256 and their dispatch | raw pointer and alignment obligations, `hashes_fuzz` |
| `chacha20_poly1305` | ChaCha20 (portable path), Poly1305, AEAD | `chacha20_poly1305_fuzz` |
| `crypto` | key encodings, WIF, sighash types, ECDSA and Schnorr signature encodings, serde | secp256k1 itself, `rand` |
| `key_expression` | child numbers, paths, extended keys, derivation, serde, `Debug` of seeds and private keys | `Debug` of the other types |
| `base58` | encoding, decoding, checksums, error texts | headings of error texts |
| `taproot_primitives` | tagged hashes, leaf versions, tweaks | `Debug` |
| `network` | `Network`, `NetworkKind`, text and core arguments, serde | `Debug` |
| `addresses` | addresses, witness programs, scripts, text, serde | the external bech32 crate is modelled after BIP-173 and BIP-350 |

## Contract violations found

Each is proved about the model with a witness (theorem in brackets) unless it says "observed".

1. `EncoderN::len` is wrong in mid-stream (`C06_len_midstream_wrong`).
2. `IterEncoder::new` loses bytes of items whose first chunk is empty (`C06_iter_loses_bytes`).
3. `EncoderByteIter::nth` returning `None` leaves the position unchanged (observed).
4. `CompactSizeDecoder` answers "needs more" to an empty push after it was ready (observed; harmless to the drivers).
5. The hex driver reports errors in a different order than the slice driver (observed; acceptance agrees, C04).
6. Amount parsing accepts `.`, `1_` and `1._5` (`C41_lenient`).
7. base58 `encode_unbounded` panics for 90-byte payloads with a first byte of 57 or more (`C30_encode_panics`).
8. `decode_check_to_array` fails for arrays longer than 124 bytes (observed).
9. `U256::from_str` accepts `+` at inner 38-digit chunk starts (`C43_from_str_inner_plus`).
10. `Target::from_compact` ignores the sign bit for exponents below 3 (`C44_sign_ignored`).
11. `Target::to_work` of target 1 is `MAX` rather than 2^255 (`C45_work_of_one`).
12. `Witness::get` and `iter` hide elements above 4,000,000 bytes, so sizes, weights and wtxid preimages disagree with the encoding (`C18_large_element_hidden`, `C13_large_element`, `C11_wtxid_large_element`).
13. `Witness::push` and the witness decoder panic at offsets of 4 GiB (`C18_push_panics`, `C19_decode_panics`).
14. `write_scriptint(i64::MIN)` panics (C34).
15. `is_multisig` counts keys in a `u8` (C35).
16. `count_p2sh_sigops` does not require a push-only scriptSig (C36).
17. `Extend<Instruction>` output depends on the iterator's size hint (C31).
18. BIP-158: `n * m` overflows for large filters; `q << p` loses bits (`C25_written`, `C26_golomb_not_injective`).
19. `BlockTransactionsRequest::from_unsorted_indices` underflows on repeated indices and on 2^64-1 (`C27_duplicates`).
20. `HeaderAndShortIds::from_block` truncates differential indices to 16 bits (`C28_wraps`) and panics for a prefill list longer than the block (`C28_refused`).
21. `max_transition_threshold_unchecked` wraps, `next_target_after` overflows `u32`, `min_transition_threshold` is not a lower bound (`C46_max_threshold_wraps`, `C46_time_overflow`, `C46_min_threshold_violated`).
22. `FeeRate::mul_by_weight` is not the exact ceiling (`C42_not_exact`).
23. `NumberOfBlocks::is_satisfied_by` refuses the documented case tip = mined - 1 (`C38_prior_block_refused`).
24. `InputWeightPrediction::new` panics on `u32` overflow (`C14_new_panics`).
25. `calculate_root` and `calculate_root_batched` agree only up to a collision on duplicate detection (C20).
26. `Hkdf::expand` panics for the 255th block although it is documented as allowed (`C63_last_block_panics`).
27. `ControlBlock` loses the parity of the internal key when serialized (`C51_odd_parity_lost`).
28. `TaprootBuilder` accepts a call after a complete tree and fails only later (`C50_late_error`).
29. The depth-first form of a node with hidden leaves never deserializes (`C52_hidden`); `NodeInfo: Eq` compares only the hash while `Ord` compares everything (observed).
30. `FeeFilter` encode/decode is lossy (`C53_fee_filter_lossy`).
31. The v2 decoder drops the payload of unknown messages (`C53_v2_unknown_payload_lost`); unknown messages with a known name do not round-trip in v1 (`C53_unknown_listed`); messages above the limit encode but do not decode (`C53_too_long`); the version relay byte is not canonical (`C53_version_relay`); `CommandString::try_from` accepts trailing NULs (observed).
32. `AddrV2::Unknown` and `Inventory::Unknown` with a known id, IPv6 addresses inside the onion-cat or mapped ranges and CJDNS addresses outside `fc00::/8` encode but do not decode to themselves (C53).
33. `SighashCache` keeps stale taproot digests when called with different prevouts (`C56_stale_prevouts`); the input index is not checked for some taproot types and is truncated to 32 bits (`C56_index_unchecked`).
34. A legacy `ALL` hash with an empty script code does not commit to the input index (`C67_legacy_empty_code`).
35. `ChaCha20::apply_keystream` panics when the buffer ends exactly at the end of block 2^32-1 (`C59_last_block`).
36. Extended keys of depth 0 with a parent encode but do not decode (`C72_master_with_parent`).
37. Child numbers accept a leading `+` and zeros (`C54_child_parse`).
38. `derive_child`/`new_master` panic for IL = 0, IL ≥ n or a zero sum, where BIP-32 asks to proceed with the next index (`C73_ckd_priv`).
39. `Take::read` at its limit still calls the inner reader (`C58_take_asks_again`).
40. `hash_reader` does not retry on `Interrupted` (example in C58).
41. HMAC asserts for block sizes above 128 (`C49_hmac_block_size`), so an HMAC over SHA3-256 (block 136) panics.
42. The library refuses the leaf version 0x50, which the consensus rule for script paths does not (`C50_bip341_verify`).
43. `Address::matches_script_pubkey` does not compare the witness version: a P2WSH address matches the taproot script with the same 32 bytes (`C74_matches_ignores_version`).
44. `Address::is_related_to_pubkey` compares payload bytes whatever the address type: a P2SH address whose script hash equals a key hash counts as related (exact set in `C74_related`).
45. The documentation of `with_huffman_tree` says saturation needs billions of branches, and a comment that it needs 2^32 of them. Four scripts of weight `u32::MAX` are enough for a tree that is not optimal (`C66_saturation`), because two such weights already saturate.
46. `MessageSignature::from_byte_array` ignores all but three bits of the first byte above 27: headers 35 to 255 are read as one of 27 to 34 (`C76_header`), so one signature has up to 28 other accepted encodings and parsing then serializing need not return the input.
47. `ServiceFlags` implements `^` as `remove`: it is not exclusive or (`C79_xor`, `C79_xor_missing`), so `flags ^ X` does not set a missing flag.
48. `Work::from_hex`, `Target::from_hex` and their serde form accept a plus sign in the middle of a number longer than 32 digits, and refuse a leading plus before exactly 32 digits (`C80_u256_plus`, exact set in `C80_u256`).
49. `taproot_leaf_script` and `taproot_control_block` promise that, for a valid transaction, `Some` means a real taproot script spend. Every P2WPKH witness gives `Some`: its 33-byte key is read as a control block of leaf version 2 (`C81_p2wpkh_confused`). BIP-341 footnote 7 restricts the assurance to certain leaf versions; the code does not.
50. The taproot accessors of a witness panic when the last of at least two elements has more than 4,000,000 bytes, which `push` accepts (`C81_large_panics`).
51. `push_p2tr_script_spend` does not check that the annex starts with 0x50; otherwise the witness is a different one (`C81_bad_annex`).
52. The text of a script whose last push opcode lacks its length bytes runs the mark into the word before it: `[0x76, 0x4c]` prints as `OP_DUP<unexpected end>`, without a space and without the name of the opcode, whereas a short push prints as `OP_PUSHBYTES_2 <push past end>` (examples in Props/C84.lean). The parsers of such text that split at spaces see an unknown word. No theorem is affected.
53. `minimal_non_dust_internal` says its result "must never be lower than Bitcoin Core's GetDustThreshold() (as of v0.21)", but `GetFee` of Core 0.21 gives at least one satoshi for a positive rate, while the code gives zero if rate times size is below 1000 (`C85_dust_refuted`: rate 1 sat/kvB). At the default rate and above 13 sat/kvB the values agree (`C85_dust_default`, `C85_dust_custom`).
54. `Amount::from_float_in(-0.0)` is refused as negative although `-0.0 < 0.0` is false (the text `-0` is), while `SignedAmount` accepts it as zero (`C86_minus_zero`). Harmless, but two checks of the same function disagree about the sign of zero.
55. `NumOpResult + NumOpResult`, `NumOpResult - NumOpResult` and the assignments replace an operand's error by `Add`/`Sub`, so `amount / 0 + result` reports `is_overflow() == true` and `is_div_by_zero() == false` although nothing overflowed; the other overloads keep the error (`C87_overflow_refuted`). The documentation of `NumOpResult` shows telling the two apart as a use.
56. `NumOpResult<Weight>` and `NumOpResult<FeeRate>` (and block intervals) get `+=` and `-=` from the generic impls over the unchecked `AddAssign`/`SubAssign` of the wrapped type: `NumOpResult::Valid(Weight::MAX) += Weight::from_wu(1)` panics (wraps without overflow checks) instead of becoming `Error(Add)`, unlike the same statement on amounts (`C87_unchecked_assign`).
57. `Address::socket_addr` uses `Ipv6Addr::to_ipv4`, which converts IPv4-compatible addresses (`::/96`) as well as IPv4-mapped ones, so `Address::new("[::1]:8333").socket_addr()` is the IPv4 socket `0.0.0.1:8333`, and the IPv6 loopback and unspecified addresses never come back (`C88_loopback_refuted`); `to_ipv4_mapped` is the intended function. `Debug` prints the same wrong address.
58. `UserAgentVersion::push_comment` does not refuse `;`, the separator it inserts itself, so `push_comment("a; b")` and `push_comment("a").push_comment("b")` give the same user agent (`C89_comment_refuted`).
59. `ClientSoftwareVersion::Date` takes any `u8` for month and day; with three digits the text is ambiguous: `2024`/`1`/`110` and `20240`/`11`/`10` both print `202401110` (`C89_date_refuted`).
60. `Serialize for OutPoint` writes the txid as a list and the vout as `[u8; 4]`, but `visit_seq` reads a byte string and a `u32` and `visit_map` two arrays. It works in bincode and in self-describing formats only because these conflate the layouts; a format that answers only what was asked for refuses every out point (`C91_outpoint_refuted`), and one with variable-length numbers reads vout 384 as 128 (`C91_outpoint_wrong`).
61. `amount::serde::as_btc::opt` and `as_str::opt` serialize `Some(a)` without `serialize_some` but deserialize with `deserialize_option`; formats that tag options cannot read back what was written (`C92_opt_refuted`; `as_sat::opt` is right, `C92_opt_sat`).
62. The `vec` modules for amounts and fee rates reserve `size_hint()` elements unchecked: in a format that believes a stored length, eight bytes of input make reading panic with a capacity overflow (`C92_vec_panic`; only lengths of at least 2^60, `C92_vec_panic_only`).
63. Fee rates above 2100000000000000 sat/MvB (after rounding), for example `FeeRate::MAX` or `FeeRate::from_sat_per_vb(u32::MAX)`, are serialized but refused when read, since reading goes through `Amount` (`C92_fee`, `C92_fee_exact`).
64. `Serialize for NodeInfo` writes the depth of a leaf as `usize` (a `u64` for serde), `Deserialize` reads a `u8`: formats that write integers by width (such as bincode) cannot read back any `TapTree` or `NodeInfo` (`C93_tree_refuted`; the unit test uses `serde_test`, which ignores widths).
65. Serde of `XOnlyPublicKey` (and `TweakedPublicKey`, `ControlBlock`) drops the parity, which `Eq` compares: a key with odd parity is read back as a different value (`C93_xonly_refuted`, `C93_control_refuted`).
66. `Keypair::from_private_key` followed by `to_private_key` marks every key as compressed (`C95_conversions`): a private key for an uncompressed public key comes back with another legacy public key, WIF and P2PKH address. Recorded as behaviour; the documentation does not promise otherwise.
67. `Weight::from_vb_unchecked` and every plain operator of weights, fee rates, heights and intervals wrap silently in builds without overflow checks: `from_vb_unchecked(2^62)` is the zero weight (C96).
68. `NodeInfo` breaks the contract of `Ord`: `PartialEq` compares only the root hash, `Ord` also the leaves and the hidden flag, so a leaf and the hidden node with its hash are equal but do not compare as equal; which of two such nodes a `BTreeMap` finds differs from what `==` says (C97).
69. `Witness` derives `Ord` over its content, which contains the offset table in native byte order: the order of witnesses, inputs and transactions differs between little-endian and big-endian platforms (C97).
70. A partial merkle tree does not commit to its depth: `extract_matches` takes a 64-byte transaction for an inner node (and an inner node for a transaction), as `num_transactions` comes from the peer. `C100_forged_id` is an accepted merkle block, under the real sha256d, that reports an id at position 2 of a block of two transactions. Callers must reject 64-byte transactions or check the depth of the coinbase; nothing in the crate or its docs does (C100).
71. `Block::validate` accepts transactions whose serialization without witnesses has 64 bytes, and the merkle tree has no domain separation: if the halves of 64-byte transactions are ids of other transactions, two different blocks with one header are both valid (`C101_forged`, with planted preimages). Consensus does not forbid this yet either (BIP-54 proposes to).
72. `HexPrimitive::fmt_hex` counts the fill from the whole text even when a precision truncates it, so `{:20.4}` of a header writes four characters and no fill (`C103_width_precision`); `str` would be padded to 20.
73. `SliceExt::get_array` documents `None` for accesses out of bounds but computes `offset + ARRAY_LEN` unchecked: with overflow checks an offset near `usize::MAX` panics (`C104_get_array`); without them the wrapped range is refused as it should be.
74. `hash_newtype_forbid_direction!` misses a `$` in `$(others:tt)*` and matches only one token tree per remaining attribute: `#[hash_newtype(forward)] #[hash_newtype(backward)] #[must_use]` compiles although it promises to report conflicts (`C105_conflict_refuted`), and a direction followed by two documentation lines does not compile although nothing conflicts (`C105_attribute_order`). No declaration in the repository is affected (`C105_direction`).
75. `From<std::io::Error> for Error` drops the code and message of operating system errors and turns kinds it does not list (`Unsupported`, `OutOfMemory`, `StorageFull`, ...) into `Other`, so an error that passes through the bridge comes back as a bare kind (`C106_back_and_there`). Recorded as behaviour; the documentation does not promise more.
76. `Arbitrary for Inventory` draws the type of an `Unknown` entry from all of `u32`: with a type that has a name (0, 1, 2, 4, 5, 0x40000001, 0x40000002) the value does not survive encoding and decoding (`C111_inventory_named`). Likewise `Arbitrary for NetworkMessage` gives `Unknown` messages with listed commands, which no bytes decode to (`C111_unknown_listed`).
77. `Arbitrary for BlockTransactionsRequest` draws offsets from all of `usize`; those above `MAX_COMPACT_SIZE` are encoded but cannot be decoded (`C111_request_partial`).
78. `Arbitrary for Xpub` gives keys of depth 0 with a parent fingerprint or child number, which `Xpub::decode` refuses (`C111_xpub_partial`); `Arbitrary for Xpriv` takes care of it (`C111_xpriv`).
79. `Arbitrary for UserAgent` counts characters but truncates bytes: `String::truncate` panics when the cut falls within a multi-byte character (`C111_user_agent_panics`).
80. `Arbitrary for InputWeightPrediction` passes any `usize` to `InputWeightPrediction::new`, which overflows `u32` for lengths from `u32::MAX` on (`C111_prediction_overflows`; see finding on `new` under C14).
81. The fuzz target `parse_address` asserts that an address prints the text it was parsed from. It does not for segwit addresses in capitals, which BIP-173 allows and the parser accepts (`C112_address_fails`, `C112_address_partial`).
82. The example program sighash.rs asserts that DER signatures have 70 to 72 bytes. Shorter ones are valid and are produced by the library's own signing (an r or s with leading zero bytes): the program panics on such inputs (`C113_p2wsh_fails`, `C113_p2wsh_spends_partial`).
83. `validate_pow(required_target)` compares targets, not `bits`. A target whose compact form ends in a zero byte has a second form (0x1b7f0000 and 0x1c007f00), and a header with that form passes although consensus rejects it: a client must also compare `bits` with `next_target_after` (`C115_validate_pow_fails`, `C115_strict`).
84. `OutOfRangeError` prints the limits of `u64` and `i64`, and `valid_range` returns them, but the limit is 21 million bitcoin: 21000001 BTC is refused because "the amount is greater than 18446744073709551615" (`C116_range_fails`). The unsigned `-0` is refused because "the amount is less than 0" (`C116_negative_zero_fails`).
85. `InvalidCharacterError` for a minus sign says "there is more than one minus sign" also when there is only one, as in `1-2` (`C116_minus_fails`). `InputTooLargeError` counts bytes and calls them characters (`C116_characters_fails`). `TooPreciseError` in satoshi calls `.0` "less than 1 satoshi but it's not zero" and calls the letter of `1.x` digits of a sub-satoshi amount (`C116_precision_fails`).
86. The messages of the relative `IncompatibleHeightError` and `IncompatibleTimeError` are swapped: `is_satisfied_by_height` on a lock of 10 intervals says "tried to satisfy a lock-by-height locktime using seconds 10", although the lock is by time, it was tried with a height, and 10 counts intervals of 512 seconds (`C117_relative_height_fails`, `C117_relative_time_fails`).
87. The documentation of `NumberOfBlocks::is_satisfied_by` allows a chain tip one below the height of the output (a parent and a child in the same block); the code refuses every such pair as arguments "probably the wrong way around" (`C117_prior_block_fails`).
88. A compact size cut off after its first byte is reported with counts that leave that byte out: for `[0xFF]` the message is "required at least 8 bytes but the input is empty", although one byte was given and nine are needed (`C118_size_fails`, for every first byte and every length).
89. `VecDecoder` reports the number of missing *items* in an error whose text says "… more bytes required": for a header followed by the count 1 the block decoder says "1 more bytes required" while at least ten are (`C118_missing_fails`).
90. A witness that ends inside its element count is reported as "not enough witness elements for decoder, missing 0", although every completion has at least 253 elements (`C118_witness_missing_fails`).
91. `OutputValueSumTooLarge` prints "sum of output values {}" with the sum up to the first output that passes the maximum, not the sum of the outputs (`C118_sum_fails`).
92. `decode_check_to_array::<N>` fails for every text if N > 124 (`C119_never`), and the error can read "decoded base58check payload was 125 bytes, expected 125" for a correct text of 125 bytes (`C119_length_fails`).
93. For long texts the length in `UnexpectedLengthError` is an estimate from the number of characters, although the text says "was {} bytes": 200 `1`s stand for a payload of 196 bytes and are reported as 146 (`C119_estimate_fails`).
94. `LegacyAddressTooLongError` says "(max 50 characters)" but counts bytes: a text of 26 characters is reported as "too long: 51" (`C119_characters_fails`).
95. The text `bc` (also `tb`, `bcrt`) is refused as an address with "'bc' is not a known hrp" (`C119_hrp_fails`).
96. `ParsePublicKeyError::InvalidHexLength` says "pubkey string should be 66 or 130 digits long, got: {}" but counts bytes: a text of 66 characters is reported as 67 (`C120_digits_fails`).
97. `InvalidMerkleTreeDepthError` says "merkle tree depth must be less than 128" but depth 128 is accepted by the builder and by control blocks (`C121_depth_fails`, `C121_block_depth_fails`); a Huffman tree that is too deep is reported with depth 128, which is allowed (`C121_huffman`).
98. Control blocks with first byte 0x50 or 0x51 are refused with "leaf version(80) must have the least significant bit 0", which 80 has; this is the only case in which decoding a control block gives that error, so its message is never true (`C121_version_fails`).
99. `TaprootBuilderError::EmptyTree` ("called finalize on an empty tree") is never returned by `finalize`, which accepts an empty builder; it is returned by `with_huffman_tree` for no scripts. An empty builder asked for its tree is said to have "incomplete branches" (`C121_empty_fails`).
100. The text of `TaprootBuilderError::OverCompleteTree` reads "There mustonly be": a line continuation in the literal drops the space (the model prints it so).
101. `TxIndexOutOfRangeError` from `BlockTransactionsRequest::indices` on overflow names the sum so far, an index that was never requested and that may well be in the block: offsets `[0, u64::MAX]` are refused for index 1 (`C122_request_fails`).
102. `MerkleBlockError::IdenticalHashesFound` says "found identical transaction hashes" also for inner nodes, with no transaction hash in the proof at all (`C122_identical_fails`).
103. `InvalidBlockError::InvalidWitnessCommitment` says that the commitment in the coinbase does not match, also when the coinbase has none (`C122_commitment_fails`).
104. `Bip34Error::NotPresent` says that there is no push in the coinbase when there is a minimal push of five or more bytes, such as the height 2^31 (`C122_height_fails`).
105. `ScriptIntError::NumericOverflow` says "script integer outside of valid range" for every push of more than four bytes, also for a number in range with padding, such as `01 00 00 00 00` (`C124_number_range_fails`).
106. `ParseOutPointError::TooLong` says "vout should be at most 10 digits" for every text of more than 75 bytes, also if the vout has one digit and the txid is too long, or there is no colon (`C124_out_point_fails`).
107. `U256::from_str` reports an overflow for a text that is not a number if the digits before the first wrong character already overflow (`C124_u256_range_fails`).
108. `WitnessVersion::try_from(Opcode)` reports the opcode as a version: for the opcode 0x05 the text is "invalid witness script version: 5", but 5 is a valid version (`C124_version_opcode_fails`).
109. `CommandStringError` says "the command string '…' has length … which is larger than 12" also for a text of at most twelve bytes that is not ASCII or has an interior null (`C125_command_length_fails`).
110. `CommandStringDecoderError::NotAscii` is also returned for ASCII bytes with a null between letters (`C125_command_ascii_fails`).
111. `AddrV2DecoderError` for an address longer than 512 bytes says that 512 were expected, also for IPv4, for which only 4 are accepted (`C125_addr_length_fails`).
112. `SendCmpctDecoderError` prints `write_err!(f, "sendcmpct error"; self)`: without `std` this prints itself again without end (stack overflow); with `std` the text says nothing of the fault (`C125_sendcmpct_text_fails`).
113. `hex_u256*`: the error of a 256-bit number quotes only the half of the text that failed and calls it "unsigned, 128-bit"; for 65 digits `f` it shows 33 of them (`C126_u256_text_fails`).
114. The message for the confusing denominations `UBTC` and `CBTC` explains that 'M' and 'P' are not supported; `PBTC`, which it speaks of, is reported as unknown instead (`C126_confusing_text_fails`).
115. `Display` of `relative::LockTime` prints the same for n blocks and n units of 512 seconds; with `#` a number of blocks is called "block-height", exactly as the absolute lock time of that height (`C126_relative_text_fails`).
116. `HmacEngine` derives `Debug`: the printed text of an engine is enough to compute the code of any message under its key (`C127_hmac_fails`), although `Hkdf` and `Bip32Seed` take care to print fingerprints.
117. `siphash24::HashEngine` derives `Debug`, which prints both halves of the key (`C127_siphash_fails`).
118. `Debug` of a peer-to-peer `Address` prints `::1` and `::ffff:0.0.0.1` alike, through the function of finding 57 (`C127_net_address_fails`).
119. `classify` puts 0xff (`OP_INVALIDOPCODE`) into `IllegalOp`, "fails the script even if not executed"; consensus fails it only if executed, as its own documentation ("Synonym for `OP_RETURN`") says (`C128_invalid_fails`).
120. `classify` puts `OP_CLTV` and `OP_CSV` into `NoOp`, "does nothing"; since BIP-65 and BIP-112 they can fail a script (`C128_noop_fails`).
- C131: `ScriptSigExt::redeem_script` (bitcoin/src/blockdata/script/borrowed.rs 463-474), documented as following BIP-16, returns `None` as soon as the script signature contains `OP_1NEGATE` or one of `OP_1` to `OP_16`, because `push_bytes` of such an instruction is `None`. BIP-16 counts these as push operations (and so does `is_push_only`), and script signatures that select a branch with `OP_1` are common. `C131_redeem_script_fails` is a valid spend for which it returns nothing.

## Property by property

### C01 — Compact size integers round-trip and have one encoding (proved)

* Code: consensus_encoding/src/compact_size.rs: CompactSizeEncoder::encode, encoded_size, compact_size_push_bytes, compact_size_decode_u64, CompactSizeU64Decoder
* Model: `Codec/CompactSize.lean`: encoder, both decoders as push state machines, byte for byte
* Proof: little-endian arithmetic lemmas, case split on the prefix byte; canonicity by inversion of the parser
* Theorems in: `Props/C01_C05.lean`
* Note: Encoder output is the unique shortest form; decode inverts encode; every accepted encoding is canonical.

### C02 — Length prefixes above the limit are rejected (proved)

* Code: consensus_encoding/src/compact_size.rs: CompactSizeDecoder::end, new_with_limit
* Model: `Codec/CompactSize.lean`: `new_with_limit`, `end`
* Proof: decision logic over all values and limits
* Theorems in: `Props/C01_C05.lean`
* Note: Length prefixes above the limit are rejected; values within are returned.

### C03 — Push decoding does not depend on how the bytes are split (proved)

* Code: consensus_encoding/src/decode/mod.rs: Decoder; consensus_encoding/src/decode/decoders.rs: ByteVecDecoder, ExactVecDecoderWith, VecDecoderWith, ArrayDecoder, Decoder2, Decoder3, Decoder4, Decoder6; primitives/src/witness.rs: WitnessDecoder; primitives/src/transaction.rs: TransactionDecoder
* Model: `Codec/Decoder.lean`: the trait as a state machine; `Combinators`, `Then`, `WireDec`, `WitnessDecode`, `TransactionDecode`, `Block`, `P2p/*` every concrete decoder
* Proof: each decoder refines a pure parser (`Lawful`); split independence is proved once from the law by induction on the list of chunks
* Theorems in: `Props/C01_C05.lean`, `Props/C08_C12.lean`, `Props/C13_C17.lean`
* Note: Any lawful push decoder is split independent; lawfulness is proved for every combinator and carried through composition, and for the hand-written witness and transaction state machines. Header and block decoders included.

### C04 — Slice, hex, buffered and unbuffered readers decode the same object (proved)

* Code: consensus_encoding/src/decode/mod.rs: decode_from_slice_internal, decode_from_slice_unbounded_internal, decode_from_hex_internal, decode_from_read_internal, decode_from_read_unbuffered_with
* Model: `Codec/Drivers.lean`: slice, hex, buffered and unbuffered drivers over reader scripts
* Proof: induction on the reader script using the law
* Theorems in: `Props/C01_C05.lean`
* Note: All drivers accept the same inputs with the same value (hex driver error precedence differs, success sets agree).

### C05 — Unbuffered reads never take a byte past the end of the object (proved)

* Code: consensus_encoding/src/decode/mod.rs: decode_from_read_unbuffered_with; consensus_encoding/src/decode/decoders.rs: read_limit
* Model: `read_limit` of every decoder, unbuffered driver
* Proof: law: a successful parse needs at least `limit` bytes; induction over the read schedule
* Theorems in: `Props/C01_C05.lean`
* Note: Unbuffered driver reads exactly the bytes of the value.

### C06 — Encoders produce exactly the concatenation of their parts and report exact lengths (partial)

* Code: consensus_encoding/src/encode/encoders.rs: BytesEncoder, PrefixedBytesEncoder, ArrayEncoder, SliceEncoder, PrefixedSliceEncoder, Encoder2..6; consensus_encoding/src/encode/mod.rs: EncoderByteIter, drain_to_vec; consensus_encoding/src/encode/iter.rs: IterEncoder
* Model: `Codec/Encoder.lean`: encoder trait (current chunk, advance, len), all combinators, byte iterator
* Proof: `Yields` relation by induction over chunk lists; two refutations with witnesses
* Theorems in: `Props/C06.lean`
* Note: Full for tuples, byte strings, options, byte iterator and fresh lengths. Two parts of the documented contract are refuted with witnesses (C06_iter_loses_bytes, C06_len_midstream_wrong); the sequence encoder theorem carries the GoodStart hypothesis that the docs ask of implementors.

### C07 — Allocation is bounded by the data received (proved)

* Code: consensus_encoding/src/decode/decoders.rs: ByteVecDecoder::reserve, ExactVecDecoderWith::reserve, MAX_VECTOR_ALLOCATE
* Model: `Codec/Alloc.lean`: capacity as explicit state
* Proof: invariant of the push loop
* Theorems in: `Props/C07.lean`
* Note: Byte vectors and item vectors; item types up to 1,000,000 bytes in memory. reserve_exact is modelled as giving exactly the requested capacity.

### C08 — Transactions survive encode then decode (proved)

* Code: primitives/src/transaction.rs: Transaction, TransactionEncoder, TransactionDecoder
* Model: `Primitives/Transaction*.lean`: encoder, the decoder state machine with its `end` checks
* Proof: refinement to a parser, round trip of the parser, all drivers by C04
* Theorems in: `Props/C08_C12.lean`
* Note: Every transaction obeying the decoder's rules, legacy and segwit, with or without trailing data.

### C09 — A transaction has a single accepted serialization (proved)

* Code: primitives/src/transaction.rs: TransactionDecoder::push_bytes, end, uses_segwit_serialization
* Model: same
* Proof: inversion of the parser
* Theorems in: `Props/C08_C12.lean`
* Note: All drivers, by C04.

### C10 — Decoded transactions satisfy the documented sanity rules (proved)

* Code: primitives/src/transaction.rs: TransactionDecoder::end
* Model: same
* Proof: exact characterisation of the accepted set
* Theorems in: `Props/C08_C12.lean`, `Props/C10Errors.lean`
* Note: The accepted set is exactly the set of transactions obeying the rules (with C08).

### C11 — txid ignores witnesses, wtxid covers them (partial)

* Code: primitives/src/transaction.rs: compute_txid, compute_wtxid, hash_transaction
* Model: `hash_transaction` as the stream fed to an arbitrary hash
* Proof: equality of streams; injectivity up to collision
* Theorems in: `Props/C08_C12.lean`
* Note: sha256d is an abstract function. The wtxid preimage equals the encoding for witness elements of at most 4,000,000 bytes; refuted beyond (C11_wtxid_large_element).

### C12 — ntxid ignores script signatures and witnesses (proved)

* Code: primitives/src/transaction.rs: compute_ntxid
* Model: `compute_ntxid`
* Proof: as C11
* Theorems in: `Props/C08_C12.lean`
* Note: sha256d is an abstract function.

### C13 — Reported sizes and weights are the sizes of the actual encodings (partial)

* Code: bitcoin/src/blockdata/transaction.rs: base_size, total_size, weight, vsize; bitcoin/src/blockdata/block.rs: total_size, weight, block_base_size; primitives/src/witness.rs: Witness::size
* Model: size functions of inputs, outputs, transactions, witnesses, blocks
* Proof: length of the encoder output, list induction
* Theorems in: `Props/C13_C17.lean`
* Note: Sizes, weights and vsize of inputs, outputs, transactions and blocks, for witness elements of at most 4,000,000 bytes; refuted beyond (C13_large_element: Witness::size iterates and stops at the large element).

### C14 — Predicted weight equals real weight (proved)

* Code: bitcoin/src/blockdata/transaction.rs: predict_weight, predict_weight_internal, predict_weight_from_slices, InputWeightPrediction::new, from_slice
* Model: `Bitcoin/PredictWeight.lean` with u32 arithmetic that can panic
* Proof: list induction, arithmetic
* Theorems in: `Props/C14.lean`
* Note: All inputs within the u32 bound stated in the property; beyond it new panics (C14_new_panics).

### C15 — OutPoint text form round-trips and is canonical (proved)

* Code: primitives/src/transaction.rs: OutPoint Display, FromStr, parse_vout
* Model: `Primitives/OutPointText.lean`
* Proof: string induction; exact acceptance
* Theorems in: `Primitives/OutPointText.lean`
* Note: Strings are UTF-8 bytes; the hex crate is modelled by its documented behaviour.

### C16 — Block headers are an 80-byte bijection (proved)

* Code: primitives/src/block.rs: Header, HeaderDecoder, HeaderEncoder, block_hash
* Model: `Primitives/Block.lean` header codec
* Proof: parser refinement
* Theorems in: `Props/C13_C17.lean`
* Note: sha256d is an abstract function.

### C17 — Blocks round-trip and are canonical (proved)

* Code: primitives/src/block.rs: BlockEncoder, BlockDecoder
* Model: block codec
* Proof: parser refinement
* Theorems in: `Props/C13_C17.lean`

### C18 — A witness behaves like a list of byte strings (proved)

* Code: primitives/src/witness.rs: Witness::push_slice, get, get_back, from_slice, clear, Iter
* Model: `Primitives/Witness.lean`: content buffer with an index table at its end
* Proof: representation invariant, refinement to a list over every operation sequence
* Theorems in: `Props/C18_C19.lean`
* Note: Elements above 4,000,000 bytes are hidden by get and iter (C18_large_element_hidden); push panics at 4 GiB (C18_push_panics).

### C19 — Witness serialization round-trips and is canonical (proved)

* Code: primitives/src/witness.rs: WitnessDecoder, WitnessEncoder, size
* Model: `Primitives/WitnessDecode.lean`
* Proof: parser refinement
* Theorems in: `Props/C18_C19.lean`
* Note: Decoder panics on offsets of 4 GiB and more (C19_decode_panics).

### C20 — The two merkle-root algorithms agree with the Bitcoin definition (proved)

* Code: primitives/src/merkle_tree.rs: calculate_root, calculate_root_batched, combine
* Model: `Primitives/Merkle.lean`: both algorithms over any combine function
* Proof: invariant relating the stack to the binary expansion of the position
* Theorems in: `Props/C20_C21.lean`, `Props/C22.lean`

### C21 — A merkle root commits to the leaf list (CVE-2012-2459 safe) (proved)

* Code: primitives/src/merkle_tree.rs: calculate_root; primitives/src/block.rs: compute_merkle_root, check_merkle_root
* Model: `calculate_root`, duplicate detection
* Proof: injectivity up to an explicit collision
* Theorems in: `Props/C20_C21.lean`, `Props/C22.lean`

### C22 — A validated block meets every block rule it claims (proved)

* Code: primitives/src/block.rs: Block::validate, check_merkle_root, check_witness_commitment, witness_commitment_from_coinbase, compute_witness_root
* Model: `Primitives/BlockValidate.lean`
* Proof: decision logic
* Theorems in: `Props/C22.lean`

### C23 — Partial merkle trees are complete (proved)

* Code: p2p/src/merkle_tree.rs: PartialMerkleTree::from_txids, traverse_and_build, traverse_and_extract, extract_matches
* Model: `P2p/Pmt.lean`: build and extract
* Proof: induction on the height
* Theorems in: `Props/C23_C24.lean`

### C24 — Partial merkle trees are sound (proved)

* Code: p2p/src/merkle_tree.rs: extract_matches, traverse_and_extract
* Model: `P2p/Pmt.lean`
* Proof: induction on the height; soundness up to a collision
* Theorems in: `Props/C23_C24.lean`

### C25 — Block filters have no false negatives and answer the set-membership question exactly (proved)

* Code: bitcoin/src/bip158.rs: GcsFilterWriter::finish, GcsFilterReader::match_any, match_all, map_to_range
* Model: `Bitcoin/Bip158.lean`
* Proof: sorted-merge induction against set membership
* Theorems in: `Props/C25_C26.lean`
* Note: SipHash is an abstract function; sort and dedup are modelled as mergesort and adjacent dedup. n*m overflow of the filter (checks on: panic) is in C25_written.

### C26 — Bit streams and Golomb-Rice codes round-trip (proved)

* Code: bitcoin/src/bip158.rs: BitStreamReader::read, BitStreamWriter::write, flush, golomb_rice_encode, golomb_rice_decode
* Model: `Bitcoin/Bip158.lean`, `BitLaws.lean`
* Proof: bit-list refinement of reader and writer
* Theorems in: `Props/C25_C26.lean`
* Note: Bit writer/reader round trip for any sequence of fields; golomb encoding with a parameter up to 64. q<<p can lose bits: C26_golomb_not_injective.

### C27 — Compact-block index lists round-trip (proved)

* Code: p2p/src/bip152.rs: BlockTransactionsRequest::from_unsorted_indices, indices, BlockTransactions::from_request
* Model: `P2p/Bip152.lean`
* Proof: list induction, wrap-around explicit
* Theorems in: `Props/C27_C28.lean`
* Note: The constructor panics (checks on) or yields a request whose indices() fails (checks off) on repeated indices and on the index 2^64-1: C27_duplicates. It never decodes to a different list: C27_never_wrong.

### C28 — Compact blocks cover the block exactly once (partial)

* Code: p2p/src/bip152.rs: HeaderAndShortIds::from_block
* Model: `P2p/Bip152.lean`: `from_block`
* Proof: list induction
* Theorems in: `Props/C27_C28.lean`
* Note: Proved for blocks of at most 65536 transactions; refuted beyond, where the 16-bit differential index wraps (C28_wraps). SipHash and SHA-256 are abstract functions.

### C29 — Base58 decoding inverts encoding (proved)

* Code: base58/src/lib.rs: encode, decode, encode_to_buffer, build_base256
* Model: `Base58/Base58.lean`: both buffers
* Proof: numeral-system lemmas
* Theorems in: `Props/C29_C30.lean`
* Note: Both the small-buffer and the heap path are modelled.

### C30 — Base58Check accepts exactly intact payloads (proved)

* Code: base58/src/lib.rs: decode_check, decode_check_to_array, encode_check
* Model: `Base58/Base58.lean`
* Proof: composition with C29, any checksum function
* Theorems in: `Props/C29_C30.lean`
* Note: sha256d is an abstract function. encode_check panics for some 90-byte payloads: C30_encode_panics.

### C31 — Script builders and script parsers agree (proved)

* Code: primitives/src/script/owned.rs: push_slice_no_opt, push_slice, push_opcode; bitcoin/src/blockdata/script/instruction.rs: Instructions::next, InstructionIndices
* Model: `Script/Script.lean`: builder, instruction iterator
* Proof: list induction
* Theorems in: `Props/C31_C33.lean`, `Props/C34.lean`
* Note: Builder and parser agree for no-opt pushes exactly and for push_slice up to the OP_n normalisation; Extend<Instruction> is shown to depend on the size hint. push_verify covered by C31_push_verify.

### C32 — Minimal-push checking is exact (proved)

* Code: bitcoin/src/blockdata/script/instruction.rs: Instructions::next, next_push_data_len; primitives/src/script/owned.rs: push_slice
* Model: `Script/Script.lean`
* Proof: case analysis on the push forms
* Theorems in: `Props/C31_C33.lean`
* Note: instructions_minimal errors exactly at the first non-minimal push, agrees with instructions otherwise; builder output is minimal.

### C33 — Script parsing terminates, never reads out of bounds and consumes every byte once (proved)

* Code: bitcoin/src/blockdata/script/instruction.rs: Instructions::next, kill, InstructionIndices::next
* Model: `Script/Script.lean`
* Proof: induction on the length
* Theorems in: `Props/C31_C33.lean`
* Note: All byte strings; offsets of instruction_indices included.

### C34 — Script numbers round-trip and are minimal (proved)

* Code: bitcoin/src/blockdata/script/mod.rs: write_scriptint, read_scriptint_non_minimal; bitcoin/src/blockdata/script/push_bytes.rs: read_scriptint; bitcoin/src/blockdata/script/owned.rs: push_int
* Model: `Script/Num.lean`
* Proof: arithmetic on sign-magnitude bytes
* Theorems in: `Props/C34.lean`
* Note: Exact decoding conditions for read_scriptint (4 bytes), CLTV (5 bytes), non-minimal and bool; write/read round trip; push_int chooses the minimal opcode. Finding: write_scriptint(i64::MIN) panics.

### C35 — Script template predicates recognise exactly their templates (proved)

* Code: primitives/src/script/borrowed.rs; bitcoin/src/blockdata/script/borrowed.rs
* Model: `Script/Templates.lean`
* Proof: exact byte patterns, case analysis
* Theorems in: `Props/C35.lean`
* Note: Exact byte patterns for all templates and witness_version, pairwise exclusion, constructors, WitnessProgram::new, script code, dust. Finding: is_multisig counts keys in a u8 (panic with overflow checks, wraps without).

### C36 — Signature-operation counting follows the consensus rule (proved)

* Code: bitcoin/src/blockdata/script/borrowed.rs: count_sigops_internal
* Model: `Script/SigOps.lean`
* Proof: fold over the instruction list against the consensus sum
* Theorems in: `Props/C36.lean`
* Note: Script counts equal the consensus sum over the instructions before the first malformed push; total_sigop_cost equals the saturated BIP-16/BIP-141 sum. Finding: P2SH cost counted also when scriptSig is not push only.

### C37 — Absolute lock times round-trip and compare correctly (proved)

* Code: units/src/locktime/absolute/mod.rs: LockTime::from_consensus, to_consensus_u32, is_satisfied_by, is_implied_by
* Model: `Units/LockTime.lean`
* Proof: arithmetic, text lemmas
* Theorems in: `Props/C37_C38.lean`
* Note: All 2^32 values, wire and text forms, satisfaction against Core's IsFinalTx rule, implication both ways, other-unit boundary cases, 11-block median.

### C38 — Relative lock times, sequence numbers and BIP-68 (proved)

* Code: units/src/locktime/relative/mod.rs: LockTime, NumberOfBlocks, NumberOf512Seconds; units/src/sequence.rs: Sequence
* Model: `Units/LockTime.lean`
* Proof: arithmetic and bit lemmas against BIP-68
* Theorems in: `Props/C37_C38.lean`
* Note: All sequence numbers; satisfaction is BIP-68 as computed by Core, with an unconfirmed coin counted at tip+1. The documented case tip = mined-1 is refused (C38_prior_block_refused).

### C39 — Amounts never leave the valid range (proved)

* Code: units/src/amount/unsigned.rs; units/src/amount/signed.rs; units/src/amount/result.rs
* Model: `Units/Amount.lean`
* Proof: inductively generated values, invariant
* Theorems in: `Props/C39.lean`
* Note: Amount/Signed are inductively generated by every modelled constructor and operation (f64 constructors, serde and Arbitrary are not modelled; the f64 ones go through the modelled string parser).

### C40 — Checked amount arithmetic is exact (proved)

* Code: units/src/amount/unsigned.rs: checked_add, checked_sub, checked_mul, checked_div, checked_rem; units/src/amount/signed.rs
* Model: `Units/Amount.lean`
* Proof: `Nat`/`Int` arithmetic
* Theorems in: `Props/C40.lean`
* Note: All checked operations, conversions, NonZero divisions and sums; results also show that the unchecked u64 operations inside never overflow on valid amounts.

### C41 — Amount text round-trips in every denomination (proved)

* Code: units/src/amount/mod.rs: parse_signed_to_satoshi, fmt_satoshi_in
* Model: `Units/AmountText.lean`
* Proof: exact parser characterisation, digit lemmas
* Theorems in: `Props/C41.lean`
* Note: C41_parse/_parse_signed characterise acceptance on every string exactly; round trips for all denominations, with precision, and padding. C41_lenient records that '.', '1_' and '1._5' are accepted. The alphabetic-character search for texts without a space is a parameter.

### C42 — Fee computation rounds as documented (partial)

* Code: units/src/fee_rate/mod.rs: to_fee, mul_by_weight; units/src/fee.rs; units/src/amount/unsigned.rs: div_by_weight_floor, div_by_weight_ceil, div_by_fee_rate_floor, div_by_fee_rate_ceil
* Model: `Units/Amount.lean`: fee rates
* Proof: division lemmas; refutation of exactness
* Theorems in: `Props/C42.lean`
* Note: The rounding of mul_by_weight is not the exact ceiling for rates that are not whole sat/kwu (C42_not_exact); C42_exact_partial covers the others and C42_enough bounds the excess.

### C43 — 256-bit arithmetic is arithmetic modulo 2^256 (proved)

* Code: include/u256.rs
* Model: `Units/U256.lean`: two 128-bit limbs
* Proof: refinement to `Nat` modulo 2^256
* Theorems in: `Props/C43.lean`
* Note: All operations against natural-number arithmetic, exact overflow flags, bytes, decimal text. Finding: FromStr accepts '+' at 38-digit chunk starts (C43_from_str_inner_plus).

### C44 — Compact targets decode and encode as consensus requires (partial)

* Code: units/src/pow.rs: Target::from_compact, to_compact_lossy, CompactTarget
* Model: `Units/Pow.lean`
* Proof: arithmetic against the consensus definition
* Theorems in: `Props/C44.lean`
* Note: from_compact is characterised exactly; it equals the consensus value except for exponents below 3 with the sign bit set (C44_sign_ignored is the witness), hence the _partial.

### C45 — Work is inversely related to target (partial)

* Code: units/src/pow.rs: Target::to_work, Work::to_target; include/u256.rs: inverse
* Model: `Units/Pow.lean`
* Proof: division lemmas
* Theorems in: `Props/C45.lean`
* Note: The work formula holds for every target except 1, where the code defines MAX (C45_work_of_one); everything else holds for all targets.

### C46 — Difficulty adjustment stays within the consensus bounds (proved)

* Code: bitcoin/src/pow.rs: from_next_work_required, min_transition_threshold, max_transition_threshold
* Model: `Units/Pow.lean`: retargeting
* Proof: arithmetic; refutations of documentation claims
* Theorems in: `Props/C46.lean`
* Note: Formula, bounds, header based adjustment (BIP 94), next_target_after incl. testnet walk. Refuted documentation claims: min_transition_threshold (C46_min_threshold_violated), max_transition_threshold_unchecked wrap (C46_max_threshold_wraps), u32 overflow (C46_time_overflow).

### C47 — Version-bits signalling (proved)

* Code: primitives/src/block.rs: Version::is_signalling_soft_fork
* Model: `Primitives/Block.lean`: version bits
* Proof: bit lemma
* Theorems in: `Props/C47.lean`
* Note: All versions, all bit indices.

### C48 — Hash engines do not depend on how input is split (proved)

* Code: hashes/src/internal_macros.rs: engine_input_impl; hashes/src/sha256/mod.rs: HashEngine, from_engine; hashes/src/sha512, sha1, ripemd160
* Model: `Hashes/Engine.lean`: block buffer over any compression function
* Proof: buffer invariant
* Theorems in: `Props/C48.lean`
* Note: Generic over block size, length encoding and compression function; the crate's engines are instances. Byte counts below 2^61 (u64 bit length).

### C49 — HMAC and tagged hashes follow their definitions (proved)

* Code: hashes/src/hmac/mod.rs: HmacEngine; hashes/src/sha256t/mod.rs
* Model: `Hashes/Hmac.lean`
* Proof: over any engine that computes a function
* Theorems in: `Props/C49.lean`
* Note: HMAC generic over any engine that computes a function; instances SHA-256 and SHA-512. Tagged hash via the const midstate. Engines with blocks over 128 bytes hit an assertion: C49_hmac_block_size.

### C50 — Taproot trees: every leaf's control block verifies (proved)

* Code: bitcoin/src/taproot/mod.rs: TaprootBuilder::insert, NodeInfo::combine, TaprootSpendInfo::from_node_info, ControlBlock::verify_taproot_commitment
* Model: `Bitcoin/Taproot.lean`: builder, Huffman, spend info, control blocks
* Proof: stack invariant against binary trees; end-to-end against BIP-341 on raw bytes in `C50Bip341.lean`
* Theorems in: `Props/C50.lean`, `Props/C50Bip341.lean`
* Note: SHA-256 abstract (tagged-hash engines proved in C49), secp256k1 abstract with its documented laws; includes with_huffman_tree for every tie-breaking, and binding up to a SHA-256 collision. Finding: a call after a complete tree may be accepted and only later rejected (C50_late_error).

### C51 — Control blocks and merkle branches have one serialization (partial)

* Code: bitcoin/src/taproot/mod.rs: ControlBlock::decode, serialize, size; bitcoin/src/taproot/merkle_branch
* Model: `Bitcoin/Taproot.lean`: control block and branch codecs
* Proof: exact acceptance, inversion
* Theorems in: `Props/C51.lean`
* Note: decode(serialize(cb)) = cb is false when the internal key carries odd parity (C51_odd_parity_lost): the format drops that flag although it takes part in equality. Exact result for all blocks in C51_decode_serialize.

### C52 — Sending a script tree through its DFS form is lossless (proved)

* Code: bitcoin/src/taproot/mod.rs: NodeInfo Serialize/Deserialize, TapTree
* Model: `Bitcoin/Taproot.lean`: depth-first form
* Proof: via the builder invariant
* Theorems in: `Props/C52.lean`
* Note: Also shows that the form never deserializes when there are hidden nodes (C52_hidden). The serde data format itself is not modelled, only the (depth, leaf) sequence.

### C53 — Network message framing is exact (proved)

* Code: p2p/src/message.rs: CommandString, V1MessageHeader, NetworkMessage, V1NetworkMessage, V2NetworkMessage and their encoders and decoders; p2p/src/address.rs, message_blockdata.rs, message_bloom.rs, message_compact_blocks.rs, message_filter.rs, message_network.rs: payload codecs
* Model: `P2p/Payloads.lean`, `P2p/Message.lean`: every message kind, v1 and v2 framing
* Proof: wire relations, lawful decoders, drains
* Theorems in: `Props/C53.lean`
* Note: The hash is a parameter. C53_v2_unknown_payload_lost, C53_unknown_listed, C53_too_long, C53_fee_filter_lossy, C53_version_relay show which messages or forms fall outside the round trip. Kind.Ok lists the payload limits of every kind.

### C54 — Derivation paths round-trip (proved)

* Code: key_expression/src/bip32.rs: ChildNumber, DerivationPath
* Model: `Bip32/Path.lean`
* Proof: exact parsers, string induction
* Theorems in: `Props/C54.lean`
* Note: Child numbers and derivation paths as text and as lists; parsing characterised exactly, including the accepted "+" and leading zeros.

### C55 — Sighash type bytes convert consistently (proved)

* Code: crypto/src/sighash.rs: EcdsaSighashType, TapSighashType
* Model: `Crypto/SighashType.lean`
* Proof: total case analysis over all u32/u8 values
* Theorems in: `Props/C55.lean`

### C56 — Sighash caching does not change the message (proved)

* Code: bitcoin/src/crypto/sighash.rs: SighashCache, segwit_v0_encode_signing_data_to, taproot_encode_signing_data_to, legacy_encode_signing_data_to
* Model: `Crypto/Sighash.lean`: cache and the three encoders
* Proof: cache invariant over every call history; equality with BIP-341, BIP-143 and the legacy definition
* Theorems in: `Props/C56.lean`
* Note: H is a parameter. C56_cached and C56_sequence cover all histories of calls on one cache whose prevouts describe the spent outputs; C56_stale_prevouts and C56_index_unchecked show what happens outside that. C56_taproot/_p2wsh/_p2wpkh/_legacy give the BIP-341, BIP-143 and legacy definitions; *_writer cover the encode_*_to forms with failing writers.

### C57 — Array-backed vector behaves like a list with a capacity (proved)

* Code: internals/src/array_vec.rs: ArrayVec
* Model: `Internals/ArrayVec.lean`
* Proof: refinement to a bounded list
* Theorems in: `Props/C57.lean`
* Note: ArrayVec over its 32-bit-capacity generic form; MaybeUninit storage as a list of written slots; refinement to a bounded list over all operation sequences, with panics explicit.

### C58 — Stream adapters deliver and accept the same bytes (proved)

* Code: io/src/lib.rs: Read, Take, Cursor, BufRead, Write; io/src/hash.rs: hash_reader; io/src/lib.rs: decode_from_read, decode_from_read_unbuffered, drain_to_writer
* Model: `Io/Io.lean`
* Proof: contracts `Delivers`/`Buffers` for readers, proved for each adapter; scripts of chunks, interruptions and errors
* Theorems in: `Props/C58.lean`
* Note: Readers are any state machine meeting the reader contract (Delivers/Buffers), instantiated by slices, cursors, Take and arbitrary scripts of chunks, interruptions and errors. Take::read at its limit still asks the inner reader (C58_take_asks_again); hash_reader does not retry after Interrupted.

### C59 — ChaCha20 keystream is position-consistent and encryption is an involution (proved)

* Code: chacha20_poly1305/src/chacha20.rs
* Model: `ChaCha/ChaCha20.lean`
* Proof: refinement to the RFC 8439 key stream at any position
* Theorems in: `Props/C59.lean`
* Note: Portable (non-SIMD) path. Finding C59_last_block: apply_keystream overflows the block counter when the buffer ends exactly at the end of block 2^32-1 (panic with overflow checks).

### C60 — Signature byte forms round-trip (proved)

* Code: crypto/src/taproot.rs: Signature::from_slice, serialize; crypto/src/ecdsa.rs
* Model: `Crypto/Signature.lean`
* Proof: exact acceptance, inversion
* Theorems in: `Props/C60.lean`

### C61 — Compact block messages have one encoding (proved)

* Code: p2p/src/bip152.rs: HeaderAndShortIdsDecoder, PrefilledTransactionDecoder, BlockTransactionsRequestDecoder, BlockTransactionsDecoder
* Model: `P2p/Bip152.lean` decoders
* Proof: exact characterisation
* Theorems in: `Props/C61.lean`
* Note: Exact characterisation of what each decoder accepts.

### C62 — SHA-2 engines compute the functions of FIPS 180-4 (proved)

* Code: hashes/src/sha256/crypto/mod.rs; hashes/src/sha512/crypto.rs; hashes/src/sha384/mod.rs; hashes/src/sha512_256/mod.rs; hashes/src/sha256/mod.rs: Midstate
* Model: `Hashes/Sha2.lean` (code) against `Hashes/Sha2Spec.lean` (FIPS 180-4)
* Proof: round by round simulation, schedule window invariant
* Theorems in: `Props/C62.lean`
* Note: The unrolled round calls are transcribed as tables; constants are checked against cube and square roots of primes. The SIMD and hardware paths are the subject of C83.

### C63 — HKDF follows RFC 5869 (partial)

* Code: hashes/src/hkdf/mod.rs: Hkdf::new, expand
* Model: `Hashes/Hmac.lean`: HKDF
* Proof: induction on the block counter; refutation for the last block
* Theorems in: `Props/C63.lean`
* Note: Proved up to 254 blocks; refuted for the 255th (C63_last_block_panics): the u8 counter overflows although 255 blocks are documented as allowed.

### C64 — The SipHash engine computes SipHash-2-4 however it is fed (proved)

* Code: hashes/src/siphash24/mod.rs: HashEngine::input, from_engine_to_u64, u8to64_le
* Model: `Hashes/Siphash.lean`
* Proof: buffer invariant, tail cases
* Theorems in: `Props/C64.lean`
* Note: Unsafe loads modelled as reads of the slice; the low byte of the count is all that matters, so no length bound.

### C65 — SHA-1, RIPEMD-160 and SHA3-256 engines compute the functions of their standards (proved)

* Code: hashes/src/sha1/crypto.rs; hashes/src/ripemd160/crypto.rs; hashes/src/sha3_256/mod.rs
* Model: `Hashes/Sha1.lean`, `Ripemd.lean`, `Keccak.lean` with their specifications
* Proof: round simulation
* Theorems in: `Props/C65.lean`
* Note: Round tables, rotation offsets and round constants are checked against the generating rules of the standards (rho and pi permutations, roots of primes, triangular numbers, LFSR).

### C67 — What a signature hash commits to (proved)

* Code: bitcoin/src/crypto/sighash.rs: taproot_encode_signing_data_to, segwit_v0_encode_signing_data_to, legacy_encode_signing_data_to
* Model: `Crypto/Sighash.lean`
* Proof: injectivity of the signed message, up to an explicit collision
* Theorems in: `Props/C67.lean`
* Note: Sizes below 2^64 and, for taproot, indices below 2^32. C67_legacy_empty_code shows that a legacy ALL hash with an empty script code does not commit to the index.

### C68 — Poly1305 computes the RFC 8439 authenticator however it is fed (proved)

* Code: chacha20_poly1305/src/poly1305.rs: new, input, tag
* Model: `ChaCha/Poly1305.lean`: 26-bit limbs
* Proof: limb invariant, refinement to arithmetic modulo 2^130-5
* Theorems in: `Props/C68.lean`
* Note: Limb arithmetic over u32/u64 with every overflow an explicit failure; proved to be the number-theoretic definition of RFC 8439.

### C69 — The ChaCha20-Poly1305 cipher is the AEAD of RFC 8439 (proved)

* Code: chacha20_poly1305/src/lib.rs: encrypt, decrypt
* Model: `ChaCha/*`
* Proof: composition of C59 and C68
* Theorems in: `Props/C69.lean`
* Note: The last theorem is up to a Poly1305 collision under the one-time key, as no unconditional claim is true.

### C70 — The fixed-time comparison is equality (proved)

* Code: hashes/src/cmp.rs: fixed_time_eq
* Model: `Hashes/Cmp.lean`
* Proof: induction
* Theorems in: `Props/C70.lean`
* Note: Volatile accesses are plain ones; timing is outside the model.

### C71 — Keys and WIF strings round-trip (proved)

* Code: crypto/src/key.rs: LegacyPublicKey, FullPublicKey, PrivateKey, WifKey
* Model: `Crypto/Keys.lean`
* Proof: exact acceptance, composition with C29/C30
* Theorems in: `Props/C71.lean`
* Note: secp256k1 points abstract (structure Secp with its laws as fields, instance Secp.toy); the checksum hash is any function.

### C72 — Extended keys round-trip (proved)

* Code: key_expression/src/bip32.rs: Xpriv::encode, Xpriv::decode, Xpub::encode, Xpub::decode, FromStr, Display
* Model: `Bip32/Xkey.lean`
* Proof: exact acceptance
* Theorems in: `Props/C72.lean`
* Note: Byte layout and string form, both directions; keys of depth 0 with a parent encode but do not decode (C72_master_with_parent).

### C73 — BIP-32 derivation (proved)

* Code: key_expression/src/bip32.rs: Xpriv::derive_child, Xpriv::derive_xpriv, Xpub::derive_child, Xpub::derive_xpub, Xpriv::new_master
* Model: `Bip32/Xkey.lean`
* Proof: against the BIP-32 formulas, abstract group with its laws
* Theorems in: `Props/C73.lean`
* Note: HMAC-SHA512, SHA-256 and RIPEMD-160 are the proved engine models; points abstract with the law pub_add; the expects are an explicit panic, reached exactly when the left half is 0 or not below the order, or the sum is 0.

### C74 — Addresses and output scripts (partial)

* Code: addresses/src/lib.rs: Address::script_pubkey, address_type, matches_script_pubkey, is_valid_for_network, is_related_to_pubkey, constructors; bitcoin/src/address.rs: from_script; addresses/src/witness_program.rs: WitnessProgram
* Model: `Addresses/Address.lean`, `Script/Templates.lean`
* Proof: case analysis over the template patterns of C35; refutation with a witness for matching
* Theorems in: `Props/C74.lean`
* Note: All proved except the last clause: matches_script_pubkey ignores the witness version (refuted by C74_matches_ignores_version; C74_matches_partial gives the exact matching set).

### C75 — Addresses as text (proved)

* Code: addresses/src/lib.rs: Display, FromStr, from_bech32_str, from_base58_str, require_network, AddressType, KnownHrp; network/src/lib.rs: Network
* Model: `Addresses/Address.lean`, `Addresses/Network.lean`, `Addresses/Bech32.lean` (BIP-173/350 over 30-bit vectors)
* Proof: C29/C30 for base58 with a leading-digit bound; linearity and invertibility of the checksum step for bech32
* Theorems in: `Props/C75.lean`
* Note: bech32 is an external crate: modelled after BIP-173/BIP-350. Proved for any double-SHA256 function.

### C66 — with_huffman_tree minimises the expected depth (proved)

* Code: bitcoin/src/taproot/mod.rs: TaprootBuilder::with_huffman_tree, NodeInfo::combine
* Model: `Bitcoin/Taproot.lean` (`withHuffmanTree`), `Bitcoin/Huffman.lean` (weighted trees)
* Proof: loop invariant with the exchange argument (two least weights moved to the deepest sibling pair); Fibonacci bound on the height
* Theorems in: `Props/C66.lean`
* Note: The bound on the sum is necessary (C66_saturation): with four scripts of weight u32::MAX the result is not optimal.

### C76 — Signed messages: format, hash, signing and verification (proved)

* Code: bitcoin/src/sign_message.rs
* Model: `Bitcoin/SignMessage.lean`, `Bitcoin/Base64.lean`
* Proof: base64 inverse both ways by recursion on groups; header byte by complete case analysis over 256 values; hash through C62; commitment by prefix-freeness
* Theorems in: `Props/C76.lean`
* Note: The secp256k1 recovery functions and the base64 crate are external: the first by laws (RecSecp, with a toy instance), the second modelled after RFC 4648.

### C77 — Genesis blocks, chain hashes, magic bytes and network parameters (proved)

* Code: bitcoin/src/blockdata/constants.rs; bitcoin/src/network/mod.rs; bitcoin/src/network/params.rs; p2p/src/network_ext.rs; p2p/src/lib.rs
* Model: `Bitcoin/Genesis.lean`
* Proof: complete case analysis over the five networks, hashes evaluated by the kernel with the SHA-256 model that C62 proves equal to FIPS 180-4; lookups by case split
* Theorems in: `Props/C77.lean`

### C78 — Block height in the coinbase (BIP-34) (proved)

* Code: bitcoin/src/blockdata/block.rs
* Model: `Bitcoin/Bip34.lean`
* Proof: through the instruction and script-number laws of C33 and C34: the first instruction is unique and minimal numbers are unique
* Theorems in: `Props/C78.lean`

### C79 — Service flags are sets; their text is faithful (proved)

* Code: p2p/src/lib.rs
* Model: `P2p/ServiceFlags.lean`
* Proof: bitwise extensionality; the printing loop by an invariant (text so far is the joined words so far); injectivity by unique splitting at bars
* Theorems in: `Props/C79.lean`

### C80 — Hexadecimal integers in text (proved)

* Code: units/src/parse_int.rs; units/src/pow.rs; include/u256.rs
* Model: `Units/HexInt.lean`, `TextRadix.lean`
* Proof: acceptance as an iff through the digit-value function; 256-bit split through concatenation of digit strings; loops by induction on the buffer room
* Theorems in: `Props/C80.lean`

### C81 — Segwit witnesses are built as the BIPs say and taproot witnesses are read by the BIP-341 rule (proved)

* Code: bitcoin/src/blockdata/witness.rs; bitcoin/src/taproot/mod.rs
* Model: `Bitcoin/P2trWitness.lean` on the packed witness of `Primitives/Witness.lean`
* Proof: the packed witness refines the element list; the reading by cases on the end of the list, unique stack for each witness; control blocks by an iff with their bytes
* Theorems in: `Props/C81.lean`
* Note: The assurance in the documentation of taproot_leaf_script and taproot_control_block is false; C81_p2wpkh_confused is the counterexample family. Everything else holds as stated.

### C82 — The floating-point value of a 256-bit integer is correctly rounded (proved)

* Code: include/u256.rs; bitcoin/src/pow.rs
* Model: `Units/U256Float.lean` on the limbs
* Proof: the limb operations in arithmetic; the condensed dropped bits compare as the dropped bits do; no double lies strictly between neighbours of the chosen exponent, so the nearer of two suffices
* Theorems in: `Props/C82.lean`
* Note: A double is its bit pattern with the IEEE 754 value, scaled by 2^1074 to a natural number. The division of difficulty_float and log2 are float operations of the platform and are not modelled.

### C83 — Every SHA-256 back end computes SHA-256, whatever the processor (proved)

* Code: hashes/src/sha256/crypto/mod.rs; hashes/src/sha256/crypto/sse41.rs; hashes/src/sha256/crypto/avx2.rs; hashes/src/sha256/crypto/x86_shani.rs; hashes/src/sha256/crypto/arm_sha2.rs; hashes/src/sha256d/mod.rs; primitives/src/merkle_tree.rs
* Model: `Hashes/Simd.lean` (SSE4.1, AVX2), `Hashes/ShaNi.lean` (SHA-NI and ARM programs, instruction by instruction), `Hashes/Dispatch.lean`
* Proof: lane-wise simulation for SSE4.1/AVX2; for SHA-NI and ARM a symbolic execution in an abstract domain of message words and round states, proved sound against the machine model, run once by the kernel; induction over blocks; case analysis of the dispatch
* Theorems in: `Props/C83.lean`
* Note: The vector intrinsics are modelled from the Intel and Arm manuals on lanes of 32 bits and byte memory; which features a processor has is a parameter (Cpu), so the claim holds for every answer of feature detection. Alignment and undefined behaviour of raw pointers are outside the model.

### C84 — The text of a script shows every instruction and every error (proved)

* Code: primitives/src/script/mod.rs; bitcoin/src/blockdata/opcodes.rs; bitcoin/src/blockdata/script/borrowed.rs; primitives/src/opcodes.rs
* Model: `Script/Asm.lean`: Display for Script (asm), Debug, fmt_opcode, opcode_to_str
* Proof: a script is cut into instructions (C33); each prints as one or two words, none containing a space; splitting at spaces and decoding the data gives the script back; names are inverted by a perfect hash checked by the kernel on all 256 opcodes
* Theorems in: `Props/C84.lean`
* Note: Texts are byte strings; the tables of names are copied from the source. The claim that two names differ is a complete case analysis over the 256 opcode bytes.

### C85 — Decisions on transactions follow the consensus and policy rules (proved)

* Code: bitcoin/src/blockdata/transaction.rs; bitcoin/src/policy.rs; bitcoin/src/consensus_validation.rs; bitcoin/src/blockdata/script/borrowed.rs
* Model: `Bitcoin/TxHelpers.lean`: rbf, finality, tx_in/tx_out, effective_value, ground_* predictions, get_virtual_tx_size, minimal_non_dust of outputs, verify_transaction with a stateful closure
* Proof: case analysis against transcribed rules of Bitcoin Core and BIP-125; induction over inputs; arithmetic over C14, C35, C37, C40 and C42
* Theorems in: `Props/C85.lean`
* Note: IsFinalTx and GetDustThreshold of Bitcoin Core are transcribed in Props/C85.lean. The library bitcoinconsensus is a parameter. C85_dust_refuted shows that tiny custom dust rates give an amount below the threshold (finding 53).

### C86 — Amounts survive the trip through floating point (proved)

* Code: units/src/amount/unsigned.rs; units/src/amount/signed.rs
* Model: `Units/AmountFloat.lean`: to_float_in, from_float_in, to_btc, from_btc of both amount types over 64-bit patterns, on top of the text conversion of C41
* Proof: half-ulp bounds for both decimals that round to the same double, digit counting against the shortest text, uniqueness of the canonical decimal; existence and uniqueness of nearest doubles by bracketing
* Theorems in: `Props/C86.lean`
* Note: f64::to_string and str::parse::<f64> of the Rust standard library are parameters; assumed of them (ShowLaws, ParseLaws) are correct rounding of decimal texts and shortest texts that round to the double; laws_exist proves that such functions exist. C86_minus_zero records finding 54.

### C87 — Expressions over amounts are exact or an error (partial)

* Code: units/src/result.rs; units/src/amount/result.rs; units/src/fee.rs; units/src/internal_macros.rs
* Model: `Units/NumOp.lean`: every overload of the operators on `NumOpResult`, `Amount`, `SignedAmount`, `Weight` and `FeeRate`, the accessors, and an indexed expression type whose evaluator picks the overload by the operands' types
* Proof: structural induction on expressions against an exact integer semantics that also collects the faults; one lemma per operator from C40 and C42, two lifting lemmas for the overloads
* Theorems in: `Props/C87.lean`
* Note: Exactness, absence of panics and soundness of is_div_by_zero hold for every expression. Soundness of is_overflow is false of the code for sums and differences of two results and for assignments (C87_overflow_refuted, finding 55); C87_overflow_partial proves it for all other expressions. NumOpResult<Weight> and NumOpResult<FeeRate> have unchecked += and -= (C87_unchecked_assign, finding 56); they are outside the expression type.

### C88 — Peer addresses keep the socket they announce (partial)

* Code: p2p/src/address.rs
* Model: `P2p/Socket.lean`: `Address::new/useless/socket_addr`, the `From`/`TryFrom` conversions of `AddrV2`, `AddrV2Message::socket_addr`, and the standard library's IPv4/IPv6 conversions they call
* Proof: prefixes of segments against prefixes of octets; exact characterisation of socket_addr by octets; wire laws of C53 for the end-to-end claims
* Theorems in: `Props/C88.lean`
* Note: The round trip is false of the code in ::/96, which includes the IPv6 loopback (C88_loopback_refuted, finding 57); C88_round_partial and C88_wire prove it for every other socket. Flow information and scope ids of IPv6 sockets are not part of the protocol.

### C89 — User agents say what was put into them (partial)

* Code: p2p/src/message_network.rs
* Model: `P2p/UserAgent.lean`: the two assertions, the builders and the `Display`s of versions and agents; a Rust string is a list of characters
* Proof: induction over the builder calls for the text; splitting at the first reserved character for injectivity
* Theorems in: `Props/C89.lean`
* Note: Panics and text are exact (C89_build); the text always determines names, version texts and comment texts (C89_fields). That it determines every comment and date is false of the code: a comment may contain '; ' (C89_comment_refuted) and months and days may have three digits (C89_date_refuted); C89_determined_partial proves it for all other clients. Findings 58 and 59.

### C90 — Chains of headers commit to their contents (proved)

* Code: p2p/src/message.rs; p2p/src/message_filter.rs; bitcoin/src/bip158.rs; p2p/src/message_network.rs
* Model: `P2p/Chains.lean`: `is_connected`, `into_headers`, `filter_hash`, `filter_header`, the final alert
* Proof: induction from the tip with C16; induction over the filters
* Theorems in: `Props/C90.lean`
* Note: Collision resistance is not assumed: the conclusion is equality or an explicit collision.

### C91 — Values survive serde in every data format (partial)

* Code: hashes/src/macros.rs; include/array_newtype.rs; primitives/src/hash_types/mod.rs; units/src/pow.rs; units/src/locktime/absolute/mod.rs; units/src/locktime/relative/mod.rs; primitives/src/script/mod.rs; primitives/src/witness.rs; primitives/src/transaction.rs; consensus_encoding/src/serde_as_consensus.rs
* Model: `Serde/Data.lean`: serde's data model, with a data format as a parameter that may do anything with a request that does not fit; `Serde/Impls.lean`: the implementations of `Serialize` and `Deserialize`
* Proof: for all formats: every request of the reader is shown to be the one that fits what the writer wrote; composed with the round trips of texts (C15, C80), witnesses (C18) and encodings (C04, C08)
* Theorems in: `Props/C91.lean`
* Note: All types but OutPoint in binary formats: there the code reads other types than it wrote. C91_outpoint_refuted: every format that answers only what was asked for refuses every out point; C91_outpoint_wrong: a format with variable-length numbers reads another out point. The two C91_outpoint_*_partial theorems say which binary formats work. The crate serde and the data formats are external; a format is any structure Fmt. Finding 60.

### C92 — Amounts and fee rates survive serde (partial)

* Code: units/src/amount/serde.rs; units/src/fee_rate/serde.rs
* Model: `Serde/Amount.lean`: the modules `as_sat`, `as_btc`, `as_str`, `as_sat_per_*` with `opt` and `vec`
* Proof: composition of C40, C41 and C86 with the contract of the format; exact rounding by arithmetic
* Theorems in: `Props/C92.lean`
* Note: Amounts and lists: all formats. Options: all formats for as_sat; as_btc::opt and as_str::opt write Some(a) as a, which only formats with untagged options read back (C92_opt_partial); formats that answer only what was asked for refuse it (C92_opt_refuted). Fee rates: exact result in C92_fee, including that rates above 2.1e15 sat/MvB are written but refused. Reading a list panics on a stored length of 2^60 or more (C92_vec_panic, C92_vec_panic_only). Findings 61, 62, 63. Decimal texts of doubles are parameters as in C86.

### C93 — Taproot trees and control blocks survive serde (partial)

* Code: bitcoin/src/taproot/mod.rs; bitcoin/src/taproot/merkle_branch/buf.rs; crypto/src/key.rs
* Model: `Serde/Taproot.lean`: `TapLeaf`, `NodeInfo`, `TapTree`, branches, x-only keys, control blocks
* Proof: refinement of the reading loop to the calls of the builder, then C50 and C52; field-by-field reading of structs in both shapes
* Theorems in: `Props/C93.lean`
* Note: Leaves and branches: all formats. Trees: formats that do not tell integer widths apart (C93_tree_partial); the depth is written as u64 and read as u8, so strict formats refuse every tree (C93_tree_refuted). Hidden nodes are not written (C93_hidden). X-only keys and control blocks lose the parity flag (C93_xonly_partial, C93_xonly_refuted, C93_control, C93_control_refuted). Findings 64, 65. The implementations of the crate secp256k1 are parameters with the round trip as law.

### C94 — Networks, addresses, keys, paths and signatures survive serde (proved)

* Code: network/src/lib.rs; addresses/src/lib.rs; key_expression/src/bip32.rs; crypto/src/key.rs; crypto/src/sighash.rs; crypto/src/taproot.rs; crypto/src/ecdsa.rs; internals/src/serde.rs
* Model: `Serde/Text.lean`: the text types, public keys, key pairs, signatures
* Proof: composition of C54, C55, C71, C72, C75 with the contract of the format
* Theorems in: `Props/C94.lean`
* Note: Extended keys: those that keep BIP-32's rule for depth zero; addresses: valid ones. The implementations of the crate secp256k1 are parameters with the round trip as law.

### C95 — A tweaked key pair signs for the tweaked public key (proved)

* Code: crypto/src/key.rs; bitcoin/src/crypto/sighash.rs; bitcoin/src/taproot/mod.rs
* Model: `Crypto/Keypair.lean`: `Keypair`, conversions of keys, `tap_tweak` for key pairs, signing and verification
* Proof: the even key of a pair generates the even point, hence tweak and public key commute; then C50 and C60
* Theorems in: `Props/C95.lean`
* Note: The curve is a structure whose laws (point addition agrees with addition of secret keys, negation keeps x and flips the parity, signatures made verify) are hypotheses; toyCurve meets them. The converse, that others cannot sign, is not claimed.

### C96 — Weights and plain unit arithmetic (proved)

* Code: units/src/weight.rs; units/src/fee_rate/mod.rs: checked_add, checked_sub, checked_mul, checked_div, operators, Sum; units/src/block.rs: operators, Sum, to_relative_mtp_interval_floor, to_relative_mtp_interval_ceil
* Model: Units/Weight.lean: conversions, checked operations, the plain operators with the build mode as a parameter, programs of operators, sums, texts
* Proof: programs by induction on size: the checked build returns v iff the integer value is v and every subprogram's value fits; the wrapping build by modular arithmetic; roundings by their order characterisation
* Theorems in: `Props/C96.lean`
* Note: The build mode (overflow checks on or off) is a parameter of the model.

### C97 — Comparisons are lawful (partial)

* Code: primitives/src/witness.rs: Witness derives Ord, encode_cursor; primitives/src/transaction.rs: Ord for Transaction, derived Ord of TxIn, TxOut, OutPoint; crypto/src/taproot.rs: SerializedSignature; crypto/src/ecdsa.rs: SerializedSignature; bitcoin/src/taproot/mod.rs: Ord, PartialEq for NodeInfo; key_expression/src/bip32.rs: PartialEq for Bip32Seed
* Model: Primitives/Order.lean: derived and hand-written Ord and PartialEq of transactions, witnesses, serialized signatures, taproot nodes, seeds
* Proof: lexicographic combination of total orders through injective keys; nodes by induction on the tree with tagged-hash injectivity; refutations by witness
* Theorems in: `Props/C97.lean`
* Note: The code refutes two parts: C97_witness_platform_false (the order of witnesses depends on the byte order of the platform; C97_witness_platform_partial: it does not for the same number of elements and the same serialized size) and C97_node_eq_false (a leaf and its hash as a hidden node are equal but compare as different; C97_node_eq_partial: nodes of trees without hidden parts agree, or the hash has a collision). Everything else is proved as stated.

### C98 — What the library signs, a node accepts (proved)

* Code: bitcoin/examples/sign-tx-segwit-v0.rs: main; bitcoin/examples/sign-tx-taproot.rs: main; bitcoin/src/crypto/sighash.rs: SighashCache; bitcoin/src/blockdata/witness.rs: p2wpkh, p2tr_key_spend, push_p2tr_script_spend; bitcoin/src/taproot/mod.rs: control_block; crypto/src/key/mod.rs: tap_tweak; addresses/src/lib.rs: script_pubkey
* Model: Bitcoin/SignTx.lean: the signing loop of the examples over a list of inputs of any kind, on the models of addresses, sighash cache, keys, signatures, taproot trees and witnesses
* Proof: loop invariant: the cache stays good and the transaction keeps what is signed, so each input gets what a fresh cache would give (C56); per kind the stored bytes meet the spending condition through C50, C56, C74, C81, C95; encoding through C08, transaction id through C11
* Theorems in: `Props/C98.lean`
* Note: Script evaluation is not part of this claim (it is C129): the spending conditions of the six script kinds are written out from BIP-16, 141, 143, 340-342. Signature laws of the curve are hypotheses carried by the `Curve` structure; that DER encodings are not empty is a hypothesis. SINGLE without a matching output is excluded for taproot (the library refuses to hash it) and has the original algorithm's digest 1 for pay to public key hash.

### C99 — A wallet can spend what its watch-only copy receives (proved)

* Code: bitcoin/examples/bip32.rs: main; key_expression/src/bip32.rs: Xpub::derive_from_path, Xpriv::derive_from_path, to_private_key, to_keypair, to_x_only_public_key, FromStr for Xpub; addresses/src/lib.rs: p2pkh, p2wpkh, p2shwpkh, p2tr, from_str, require_network; bitcoin/examples/sign-tx-segwit-v0.rs; bitcoin/examples/sign-tx-taproot.rs
* Model: Bitcoin/Wallet.lean: export of the account key, watch-only addresses from its text, payer, derivation of the keys and signing
* Proof: commutation of public and private derivation over paths, text round trips, the address of a lock, then C98 on the list of coins
* Theorems in: `Props/C99.lean`
* Note: Composition of C72, C73, C74, C75 and C98 over a model of examples/bip32.rs. The laws of the curve are hypotheses carried by structures, as in C73 and C95; SINGLE without a matching output is excluded for taproot.

### C100 — What a light client concludes is true of the block (proved)

* Code: p2p/src/merkle_tree.rs: MerkleBlock::from_block_with_predicate, extract_matches; p2p/src/message.rs: HeadersMessage::is_connected; primitives/src/block.rs: Block::validate; bitcoin/src/bip158.rs: BlockFilter::new_script_filter, match_any; primitives/src/transaction.rs: compute_txid
* Model: P2p/LightClient.lean: the merkle block of a block; the rest from P2p/Pmt.lean, P2p/Chains.lean, Primitives/BlockValidate.lean, Bitcoin/Bip158.lean
* Proof: an accepted tree against the tree of the block by comparing heights: equal heights give the leaf, other heights make a transaction's bytes and a pair of hashes have one hash; chain and filter parts through C90; the exception by an evaluated witness
* Theorems in: `Props/C100.lean`
* Note: Composition of C11, C22, C23, C24, C25 and C90. The condition on 64-byte transactions is part of the statement; C100_forged and C100_forged_id show it cannot be dropped (finding 70).

### C101 — A block hash identifies one valid block (proved)

* Code: primitives/src/block.rs: Block::validate, check_merkle_root, check_witness_commitment, compute_witness_root, Header::block_hash; primitives/src/merkle_tree.rs: calculate_root; primitives/src/transaction.rs: compute_txid, compute_wtxid
* Model: Primitives/BlockValidate.lean, Primitives/Merkle.lean (as for C20 to C22)
* Proof: two trees with one root: equal heights by C21; for different heights a leaf of one is a parent in the other, by induction on the height; then txids, the last commitment, the witness tree and wtxids through C11; the exception by an evaluated witness
* Theorems in: `Props/C101.lean`
* Note: For decodable transactions whose witnesses fit 32-bit offsets. The condition on 64-byte transactions is part of the statement; C101_forged shows it cannot be dropped (finding 71).

### C102 — Compact block relay delivers the block (proved)

* Code: p2p/src/bip152.rs: HeaderAndShortIds::from_block, ShortId::with_siphash_keys, BlockTransactionsRequest::from_unsorted_indices, BlockTransactionsRequest::indices, BlockTransactions::from_request, encoders and decoders; primitives/src/block.rs: Block::validate
* Model: P2p/Bip152.lean (as for C27, C28, C61)
* Proof: the slots of C28_covers_partial; every slot is the transaction, or unknown, by the condition on the pool; asking for exactly the unknown positions and filling them in order by induction on the slots; bounds of the offsets for the wire; C101_block for the second part
* Theorems in: `Props/C102.lean`
* Note: Version 2 (wtxid). The receiver is not in the crate: it is BIP-152's, written in Props/C102.lean as part of the statement over the crate's functions. C102_ambiguous shows that the condition on the pool cannot be dropped. The second part has the conditions of C101 (no 64-byte transactions, witnesses fit).

### C103 — Transactions, blocks, headers and scripts survive their hexadecimal text (proved)

* Code: primitives/src/hex_codec.rs: HexPrimitive::fmt_hex; primitives/src/transaction.rs: FromStr, Display, LowerHex, UpperHex for Transaction; primitives/src/block.rs: FromStr, Display, LowerHex, UpperHex for Block and Header; primitives/src/witness.rs: LowerHex, UpperHex; primitives/src/script/borrowed.rs: to_hex_string_prefixed, to_hex_string_no_length_prefix; primitives/src/script/owned.rs: from_hex_prefixed, from_hex_no_length_prefix; consensus_encoding/src/encode/mod.rs: drain_to_hex, encode_to_hex, EncoderByteIter; consensus_encoding/src/decode/mod.rs: decode_from_hex
* Model: Primitives/HexText.lean: fmt_hex over the byte iterator with all formatter options, parsers, script text
* Proof: C06_byte_iter gives the bytes; the digit loop is a prefix of the digits by induction; characters read are the digits up to case by a finite check below 128 and none above; then C04, C08, C09, C16, C17
* Theorems in: `Props/C103.lean`
* Note: The hex crate is external and modelled by its digits. Conditions on what is read back are those of the decoders (C10, C17).

### C104 — Cutting slices and arrays loses nothing and stays inside them (proved)

* Code: internals/src/slice.rs: bitcoin_as_chunks, bitcoin_as_chunks_mut, get_array, split_first_chunk, split_last_chunk; internals/src/array.rs: sub_array, split_array, get_static, first, split_first, split_last
* Model: Internals/Slice.lean: slices as windows of a region, casts as reads at computed positions, out of the slice is none
* Proof: index arithmetic of the windows; flattening by induction on the number of chunks; stores by pointwise comparison of regions
* Theorems in: `Props/C104.lean`
* Note: A slice is a window of a list; alignment and aliasing rules are not modelled. Conditions the compiler checks are none in the model.

### C105 — Hash types as text (proved)

* Code: hashes/src/macros.rs: impl_hex_string_traits, hash_newtype, hash_newtype_get_direction, hash_newtype_forbid_direction; primitives/src/hash_types/generic.rs; bitcoin/src/crypto/sighash.rs: LegacySighash, SegwitV0Sighash; p2p/src/message_filter.rs: FilterHash, FilterHeader; bitcoin/src/pow.rs: Target::is_met_by
* Model: Hashes/HashText.lean: the table of hash types with their declarations, the direction macros as functions on attribute lists, formatting and parsing
* Proof: C103 lemmas on digits; the number by induction on the bytes; the macros by induction on the attributes; the table by cases
* Theorems in: `Props/C105.lean`
* Note: Formatter options are handled by the external hex crate and not modelled; errors of FromStr are merged. The documented claim of the macro that conflicting directions are reported is refuted (C105_conflict_refuted).

### C106 — Streams of the standard library work through the bridge (proved)

* Code: io/src/bridge.rs: FromStd, ToStd, impl_our; io/src/error.rs: ErrorKind::from_std, ErrorKind::to_std, From<std::io::Error> for Error, From<Error> for std::io::Error
* Model: Io/Bridge.lean: errors and kinds of both libraries, wrappers as stream transformers
* Proof: cases over the kinds; a wrapped stream keeps the contract Delivers/Buffers, then C58
* Theorems in: `Props/C106.lean`
* Note: The standard library is modelled by its interface; unwind safety and pointer casts of transparent_newtype are not modelled.

### C107 — A tap tree lists each of its scripts once, with a proof of membership (proved)

* Code: bitcoin/src/taproot/mod.rs: TapTree::script_leaves, ScriptLeaves, LeafNodes, ScriptLeaf::from_leaf_node, LeafNode::depth, TapTree::try_from
* Model: Bitcoin/Taproot.lean: ScriptLeaves as the list of leaves left, both ends
* Proof: simulation by a queue, by induction on the calls; the leaf list of a node equals the paths of the sorted tree by induction on the tree
* Theorems in: `Props/C107.lean`
* Note: The order is that of the hash-sorted tree, not of the add_leaf calls.

### C108 — A fee planned before signing suffices for the transaction that is signed (proved)

* Code: bitcoin/src/blockdata/transaction.rs: predict_weight, InputWeightPrediction::new, from_slice, P2WPKH_MAX, NESTED_P2WPKH_MAX, P2PKH_COMPRESSED_MAX, P2PKH_UNCOMPRESSED_MAX, P2TR_KEY_DEFAULT_SIGHASH, P2TR_KEY_NON_DEFAULT_SIGHASH; primitives/src/transaction.rs: Transaction::weight; units/src/fee_rate/mod.rs: FeeRate::mul_by_weight
* Model: Bitcoin/FeePlan.lean: a prediction for each lock, the planned weight and fee
* Proof: the lengths of everything signTx stores (signed_core of C98) are at most those of the plan; the prediction is monotone in them and exact for the signed transaction (C14_predict); the fee by C42_enough
* Theorems in: `Props/C108.lean`
* Note: The bound of 71 bytes on DER signatures (low S) is a hypothesis on the external library; the program that plans is in Bitcoin/FeePlan.lean.

### C109 — Conversations over a stream: every message is answered in order, and the handshake completes (proved)

* Code: p2p/examples/handshake.rs: main; p2p/examples/ping-pong.rs: main; p2p/src/message.rs: V1NetworkMessage::new, V1NetworkMessageEncoder, V1NetworkMessageDecoder, Pong::from_ping; consensus_encoding/src/decode/mod.rs: decode_from_read
* Model: P2p/Session.lean: the loop of the two programs over the v1 decoder, a node with its log, two nodes with the bytes under way between them, and the small-step relation
* Proof: the decoder's acceptance relation (C53) gives one step per complete message and a begun message otherwise; the reactions are a fold over the messages; the handshake by an invariant over executions that relates the consumed and the pending bytes of each end to what the other has written
* Theorems in: `Props/C109.lean`
* Note: TCP is modelled as two reliable ordered queues of bytes with unbounded buffers; time-outs, connection loss and the operating system are not modelled. A program that has left its loop leaves the bytes that arrive later in the queue. The network magics of the two ends may differ: the decoder reads the magic and compares it with nothing, so the handshake completes all the same; the theorem shows which magic each end received.

### C110 — The round-trip assertions of the fuzz targets hold for every input (proved)

* Code: fuzz/src/lib.rs: check_roundtrip, check_script_roundtrip, stream_encode_decode; fuzz/fuzz_targets/bitcoin/encoding_roundtrip; fuzz/fuzz_targets/bitcoin/deserialize_block.rs; fuzz/fuzz_targets/bitcoin/deserialize_transaction.rs; fuzz/fuzz_targets/bitcoin/deserialize_witness.rs; fuzz/fuzz_targets/bitcoin/deserialize_script.rs; fuzz/fuzz_targets/consensus_encoding; consensus_encoding/src/decode/decoders.rs; consensus_encoding/src/encode/encoders.rs
* Model: Codec/Roundtrip.lean: stream_encode_decode as a fuelled loop over encoder chunks and decoder feeds, and the assertions of the targets as predicates on one input
* Proof: induction over the encoder's chunks with the decoder's acceptance relation; the decoder laws and encoder byte laws of C01-C12, C53 and C61 give each instance
* Theorems in: `Props/C110.lean`
* Note: One theorem clause per wire format; newtypes over the same format (BlockHash, TxMerkleNode, FilterHash, TapLeafHash over 32 bytes; BlockHeight, BlockTime, Version, CompactTarget, Sequence, ProtocolVersion over u32; the script types over prefixed bytes) share a clause. The comparison with the released bitcoin 0.32 (compare_consensus_encoding.rs) is outside: that crate is not in the repository.

### C111 — Generated values keep the rules of the types (partial)

* Code: primitives/src/transaction.rs: Arbitrary for Transaction, TxIn; primitives/src/block.rs: Arbitrary for Block; primitives/src/witness.rs: Arbitrary for Witness; p2p/src/address.rs: Arbitrary for AddrV2; p2p/src/message.rs: Arbitrary for CommandString, FeeFilter, NetworkMessage; p2p/src/message_blockdata.rs: Arbitrary for Inventory; p2p/src/message_network.rs: Arbitrary for UserAgent; p2p/src/merkle_tree.rs: Arbitrary for PartialMerkleTree; p2p/src/bip152.rs: Arbitrary for BlockTransactionsRequest; key_expression/src/bip32.rs: Arbitrary for Xpriv, Xpub; bitcoin/src/blockdata/transaction.rs: Arbitrary for InputWeightPrediction; fuzz/fuzz_targets/bitcoin/arbitrary_transaction.rs; fuzz/fuzz_targets/bitcoin/arbitrary_block.rs; fuzz/fuzz_targets/bitcoin/arbitrary_witness.rs
* Model: Fuzz/Arbitrary.lean: each generator as a function of the drawn values, with its expect, subtraction and truncate as none
* Proof: invariants of the retain, filter and cap loops by induction give the decoder's rules; C08, C13, C17 and the wire laws of each type give the round trip; concrete draws refute the rest
* Theorems in: `Props/C111.lean`
* Note: The code itself refutes the claim for six generators: Inventory and NetworkMessage::Unknown with a listed type or command, offsets above MAX_COMPACT_SIZE, Xpub of depth 0 with a parent, UserAgent and InputWeightPrediction with a panic. For these the _partial theorems give the condition under which the claim holds. Drawing (the arbitrary crate) is not modelled: a generator is a function of what is drawn.

### C112 — What the text and script fuzz targets assert holds for every input (partial)

* Code: fuzz/fuzz_targets/bitcoin/parse_outpoint.rs; fuzz/fuzz_targets/units/parse_amount.rs; fuzz/fuzz_targets/units/parse_int.rs; fuzz/fuzz_targets/bitcoin/arbitrary_script.rs; fuzz/fuzz_targets/p2p/arbitrary_addrv2.rs; fuzz/fuzz_targets/bitcoin/parse_address.rs
* Model: Fuzz/Targets.lean: what each target asserts of one input, as a proposition
* Proof: composition of the laws of the types (C15, C41, C80, C74, C75, C88) and, for scripts, induction over the instructions with the law that a minimal push is written back as read
* Theorems in: `Props/C112.lean`
* Note: The code itself refutes the claim for parse_address: a segwit address in capitals parses and prints in lower case (C112_address_fails); C112_address_partial says exactly when the assertion holds.

### C113 — The example programs print the hashes that were signed (partial)

* Code: bitcoin/examples/sighash.rs; bitcoin/examples/script.rs; bitcoin/examples/io.rs; consensus_encoding/examples/encoder.rs
* Model: Bitcoin/Examples.lean: each program as a function of its inputs that is `none` where the program panics
* Proof: decision logic reduced to the decoder, witness and sighash laws (C10, C27, C56), induction over the signatures with the invariant of the sighash cache, and composition with the signing programs (C98)
* Theorems in: `Props/C113.lean`
* Note: The code itself refutes the claim for P2WSH: the program asserts DER lengths of 70 to 72 bytes and panics on shorter valid signatures (C113_p2wsh_fails); C113_p2wsh_spends_partial says exactly when it returns.

### C114 — A signed input stays valid under exactly the changes its hash types allow (proved)

* Code: crypto/src/sighash.rs; bitcoin/src/crypto/sighash.rs; bitcoin/examples/sign-tx-segwit-v0.rs; bitcoin/examples/sign-tx-taproot.rs
* Model: the validity predicate of C98 with the digests of C56; `Keeps` lists, per hash type, what is covered
* Proof: congruence of the three digests under `Keeps`, by cases on the types, lifted through multisignature matching; the converses from the commitment theorems (C67)
* Theorems in: `Props/C114.lean`
* Note: Inputs of the kinds of C98 (P2PKH, P2WPKH, nested P2WPKH, P2WSH multisignature, taproot key and single-leaf script path, no annex). In the original algorithm SINGLE also commits to the index, so C114_join asks the second transaction for segwit signatures.

### C115 — A client that follows headers keeps exactly the chains of the consensus rules (proved)

* Code: bitcoin/src/pow.rs; bitcoin/src/blockdata/block.rs; units/src/pow.rs
* Model: Bitcoin/HeaderSync.lean: the client loop over `next_target_after`, `validate_pow`, `work` and `Add for Work`
* Proof: invariant over the incoming headers (every kept target within the limit, the kept list a chain), from the retargeting, work and target theorems (C45, C46); induction from the tip backwards with C16
* Theorems in: `Props/C115.lean`
* Note: The client loop is ours (Bitcoin/HeaderSync.lean); the functions it calls are the library's. Testnets and regtest are left out: their minimum-difficulty rule is C46's, and next_target_after can panic there (finding of C46). Median time and version rules are not in the library.

### C116 — The errors of amount parsing tell the truth (partial)

* Code: units/src/amount/error.rs; units/src/amount/mod.rs; units/src/amount/unsigned.rs; units/src/amount/signed.rs
* Model: Units/AmountErrors.lean: the parser on characters with the full error values, and the texts of the messages
* Proof: invariant of the character loop (what has been read, how many decimals, whether an underscore was last); a prefix whose value is too large makes the whole text too large; refinement to the byte parser through UTF-8; counterexamples for the wrong messages
* Theorems in: `Props/C116.lean`
* Note: Proved: every error value is explained by the text (C116_explained, C116_out_of_range), on a character-level parser shown equal to the byte-level one of C41 (C116_same_parser), and every message is true outside four named cases (C116_messages_partial). The code refutes the messages in those four: out-of-range bounds and -0, one minus sign, bytes called characters, satoshi amounts (the _fails theorems).

### C117 — Lock heights and lock times are read exactly, and the errors of lock times tell the truth (partial)

* Code: units/src/locktime/absolute/mod.rs; units/src/locktime/absolute/error.rs; units/src/locktime/relative/mod.rs; units/src/locktime/relative/error.rs; units/src/parse_int.rs
* Model: Units/LockErrors.lean: i64 and hex parsing of heights and times, all error values of the lock times and their printed texts
* Proof: characterisation of the digit loop: success, invalid digit, and overflow after a prefix that is already too large; a list of sentences with the condition that makes each true, then every failing call matched to its sentence; counterexamples for the two swapped messages
* Theorems in: `Props/C117.lean`
* Note: Proved: exact parsing, round trip, and truth of every message but two (C117_messages_partial). The code refutes the full claim: the messages for a relative lock of the wrong unit are swapped (C117_relative_height_fails, C117_relative_time_fails). C117_prior_block_fails shows that a documented input is refused.

### C118 — The errors of decoding say what is wrong with the bytes, and where (partial)

* Code: consensus_encoding/src/error.rs; consensus_encoding/src/compact_size.rs; consensus_encoding/src/decode/decoders.rs; primitives/src/transaction.rs; primitives/src/witness.rs; primitives/src/block.rs
* Model: Codec/Explain.lean, Primitives/Explain.lean, Primitives/ExplainTx.lean: a description of the faulty bytes for every error, in terms of encodings only; Codec/Messages.lean: the printed texts
* Proof: a calculus `Tells P bad short` (an equivalence for failures and for early ends) closed under arrays, byte strings, sequences, pairs and maps, then the hand-written witness and transaction machines by a complete case split of their parsers; carried to the push decoders by lawfulness; lower bounds by the same composition
* Theorems in: `Props/C118.lean`
* Note: Proved: the exact error of every decoder (C118_compact_size … C118_block), its permanence (C118_final), lower bounds on missing bytes and the truth of the compact size messages away from a cut size. The code refutes the full claim for the numbers: C118_size_fails, C118_missing_fails, C118_witness_missing_fails, C118_sum_fails.

### C119 — The errors of reading base58 texts and addresses tell the truth (partial)

* Code: base58/src/lib.rs; base58/src/error.rs; addresses/src/lib.rs; addresses/src/error.rs; addresses/src/witness_program.rs; internals/src/error/input_string.rs
* Model: Base58/Errors.lean, Addresses/Errors.lean: the printed texts; the functions are those of C30 and C75
* Proof: the buffer of 128 bytes overflows exactly when the number is at least 256^128 (digit counts of normalised numbers), whence one equation for the array decoder on base58 texts and one on other texts; messages from the equivalences; witnesses by bounds on powers
* Theorems in: `Props/C119.lean`
* Note: Proved: the exact errors (C119_array_errors, C119_too_long), truth of the messages of decode_check and of witness programs without limit, of arrays for texts up to 128 characters, and of addresses with two exceptions. The code refutes the full claim: C119_length_fails, C119_estimate_fails, C119_characters_fails, C119_hrp_fails; C119_never shows that large arrays are never filled.

### C120 — The errors of keys, WIF texts, extended keys and derivation paths tell the truth (partial)

* Code: crypto/src/key.rs; key_expression/src/bip32.rs
* Model: Crypto/KeyErrors.lean: the printed texts; the functions are those of C54, C71, C72, C73
* Proof: a predicate of faults for each reader; three facts give the equivalence: every error is a fault, faults exclude each other, and accepted inputs have none
* Theorems in: `Props/C120.lean`
* Note: Proved: the exact errors of public keys, WIF texts, extended keys, numbers, child numbers, paths and seeds, and truth of all messages, with one exception: the message about the length of the text of a public key counts bytes as digits (C120_digits_fails), so C120_text_messages_partial is for ASCII texts. The text of hex errors of public keys is not modelled.

### C121 — The errors of Taproot builders, control blocks, signatures and signature hashes tell the truth (partial)

* Code: bitcoin/src/taproot/mod.rs; crypto/src/taproot.rs; crypto/src/ecdsa.rs; bitcoin/src/crypto/sighash.rs; bitcoin/src/sign_message.rs
* Model: Bitcoin/TaprootErrors.lean: the printed texts; the functions are those of C51, C56, C60, C66, C76
* Proof: faults of a builder are stated over the list of calls (a leaf below a leaf, a return to a closed branch, two leaves at one place, and so on) and connected to its state by the invariant of depth-first order; the other readers by exclusive fault predicates as in C120; a Huffman failure needs more than 129 scripts because every level of its tree takes one script
* Theorems in: `Props/C121.lean`
* Note: Proved: the exact errors and the truth of all messages except three, which are refuted: the depth messages say "less than 128" although 128 is allowed (C121_depth_fails, C121_block_depth_fails), control blocks with leaf version 0x50 are said to have an odd version (C121_version_fails), and the error about finalizing an empty tree is returned for an empty list of scripts only (C121_empty_fails). C121_builder_messages_partial, C121_control_messages_partial and C121_leaf_version_partial exclude exactly these.

### C122 — The errors about blocks, Merkle proofs, block requests and proofs of work tell the truth (partial)

* Code: p2p/src/merkle_tree.rs; p2p/src/bip152.rs; primitives/src/block.rs; bitcoin/src/blockdata/block.rs
* Model: Bitcoin/BlockErrors.lean: the printed texts; the functions are those of C22, C23, C27, C77, C78
* Proof: an inductive description of where a depth-first reading of a proof gets stuck, shown to be exactly the errors of the extraction; the overflow messages are then stated over every tree shape that the flags could describe, using that flags determine the shape; the rest from the exact characterisations of C22, C27, C77 and C78
* Theorems in: `Props/C122.lean`
* Note: Proved: the exact errors of every check and the truth of all messages except four, which are refuted: "found identical transaction hashes" for inner nodes (C122_identical_fails), a missing witness commitment said not to match (C122_commitment_fails), a height pushed in five or more bytes said not to be present (C122_height_fails), and an overflowing request reported with an index that was not requested and is in the block (C122_request_fails). The _partial theorems exclude exactly these.

### C123 — What the model-checking harnesses assert holds for every input (proved)

* Code: units/src/amount/verification.rs; internals/src/array_vec.rs; bitcoin/src/pow.rs
* Model: Verification/Kani.lean: the five harnesses, with a run skipped, passed or failed; panics of the steps are failures
* Proof: the functions are those of C40, C43 and C57; induction on the number of elements for the loops
* Theorems in: `Props/C123.lean`
* Note: All five harnesses; the two for array vectors also for every capacity and number of elements.

### C124 — The errors about scripts, script numbers, out points, witness versions, sizes and indices tell the truth (partial)

* Code: bitcoin/src/blockdata/script/mod.rs; bitcoin/src/blockdata/script/push_bytes.rs; primitives/src/transaction.rs; primitives/src/script/push_bytes.rs; primitives/src/witness_version.rs; include/u256.rs
* Model: Bitcoin/ScriptErrors.lean: the printed texts, the conversions to a witness version with their error values, push buffers and their methods; the other functions are those of C15, C31-C34, C43, C63
* Proof: a script is cut off exactly if no prefix is an instruction, and then bytes can be added to complete a push, shown by completing the length and the data; out points by the uniqueness of the split at a single colon; buffers by an invariant over all sequences of calls
* Theorems in: `Props/C124.lean`
* Note: Proved: the exact errors, the invariant of push buffers and the truth of all messages except four, which are refuted: a padded script number in range said to be out of range (C124_number_range_fails), any long text of an out point said to have too many digits in its vout (C124_out_point_fails), a text that is no number said to exceed 256 bits (C124_u256_range_fails), and an opcode reported as a witness version (C124_version_opcode_fails). The _partial theorems exclude exactly these.

### C125 — The errors of the peer-to-peer layer and of networks tell the truth (partial)

* Code: p2p/src/message.rs; p2p/src/address.rs; p2p/src/message_compact_blocks.rs; p2p/src/message_bloom.rs; p2p/src/message_network.rs; p2p/src/bip152.rs; p2p/src/bip434.rs; p2p/src/lib.rs; network/src/lib.rs
* Model: P2p/Errors.lean: the printed texts and the conversions with their error values; the decoders are those of C65, C66 and C70-C76
* Proof: every decoder is lawful and tells why it fails (Codec/Why), so an error of a mapped decoder is an error of the inner one or of the map on a decoded value; commands by induction on the bytes before the padding; the text without std by its length
* Theorems in: `Props/C125.lean`
* Note: Proved: the exact errors and the truth of all messages except those refuted here: a short command said to be longer than twelve (C125_command_length_fails), ASCII bytes said not to be ASCII (C125_command_ascii_fails), an address said to need 512 bytes (C125_addr_length_fails), and an error without any text when built without std (C125_sendcmpct_text_fails). The _partial theorems exclude exactly these.

### C126 — The errors of integers, denominations, block intervals and addresses as text tell the truth, and the text of a lock time determines it (partial)

* Code: units/src/parse_int.rs; units/src/amount/error.rs; units/src/amount/mod.rs; units/src/block.rs; addresses/src/error.rs; addresses/src/lib.rs; bitcoin/src/address.rs; units/src/locktime/absolute/mod.rs; units/src/locktime/relative/mod.rs
* Model: Units/TextErrors.lean: the errors with the text they quote and the printed bytes; the parsers are those of C41, C74, C75, C80 and C117
* Proof: the accepted texts are those of the earlier theorems, so that the refused ones are the others; decimal texts are injective since the signed parser reads them back; the two words height and time differ in their first letter
* Theorems in: `Props/C126.lean`
* Note: Proved: the exact errors and texts, except those refuted here: for a 256-bit number the message quotes only a part of the text and speaks of 128 bits (C126_u256_text_fails; C126_u256_partial says what is true of the quoted part), the reason given for confusing denominations (C126_confusing_text_fails), and the plain text of relative lock times (C126_relative_text_fails). The search for an alphabetic character is a parameter.

### C127 — What is printed for debugging shows of secrets only fingerprints, and tells public values apart (partial)

* Code: key_expression/src/bip32.rs; hashes/src/hkdf/mod.rs; hashes/src/hmac/mod.rs; hashes/src/siphash24/mod.rs; units/src/amount/unsigned.rs; units/src/sequence.rs; units/src/locktime/absolute/mod.rs; primitives/src/witness.rs; addresses/src/lib.rs; p2p/src/address.rs
* Model: Debug/Debug.lean: the builders debug_struct, debug_tuple and debug_list and the Debug code of the types named
* Proof: texts of digits end where the next character is no digit; a relation saying that two texts, so followed, agree only if their values do, is closed under fields, structures and lists; a text that determines the engine determines what it computes
* Theorems in: `Props/C127.lean`
* Note: Proved for seeds, HKDF, extended private keys and the public values; refuted for HMAC and SipHash engines, whose derived Debug shows what is needed to compute codes (C127_hmac_fails) or the key itself (C127_siphash_fails), and for network addresses that begin with 96 zero bits (C127_net_address_fails). The texts of the curve library and of the standard library's IP addresses are parameters.

### C128 — The class of an opcode predicts what evaluation does with it (partial)

* Code: bitcoin/src/blockdata/opcodes.rs; bitcoin/src/blockdata/script/borrowed.rs
* Model: Script/Opcodes.lean: `classify` with its match arms in source order; the rules of evaluation are in the property file
* Proof: per opcode the class determines the case of the evaluator, checked for all 256 opcodes and both contexts; an opcode on which every step fails makes a run fail by induction over the script
* Theorems in: `Props/C128.lean`
* Note: Proved against rules of evaluation written after Bitcoin Core and BIP-342, with the stack and the ordinary opcodes as parameters. Refuted for 0xff, which is of class IllegalOp but fails only if executed (C128_invalid_fails; C128_return says what it does), and for OP_CLTV and OP_CSV, which are of class NoOp but can fail a script (C128_noop_fails; C128_noop_partial is about the others).

### C129 — Scripts the library builds can be spent by those who meet their condition and by nobody else, and what it signs passes verification (proved)

* Code: primitives/src/script/owned.rs; bitcoin/src/blockdata/script/owned.rs; addresses/src/lib.rs; bitcoin/examples/sign-tx-segwit-v0.rs; bitcoin/examples/sign-tx-taproot.rs
* Model: no new code: the constructors of Script/Templates.lean and the signer of Bitcoin/SignTx.lean, against an evaluator in the property file
* Proof: scripts without conditions reduce to a fold of stack operations (`run_line`); the loop of OP_CHECKMULTISIG is shown to find an assignment whenever there is one (`greedy_iff`), also from the other end (`matches_reverse`); each case of `Spends` (C98) is then a run of `verify`
* Theorems in: `Props/C129.lean`
* Note: The rules (EvalScript, VerifyScript, VerifyWitnessProgram, with OP_DUP, OP_HASH160, OP_EQUAL, OP_EQUALVERIFY, OP_CHECKSIG and OP_CHECKMULTISIG) are written in the property file after Bitcoin Core and the BIPs; the other opcodes are parameters. Signature checks are those of C98. Not covered: witnesses with an annex, removal of the signature and of OP_CODESEPARATOR from the script code, key counting in the limit of operations, and the signature operation budget of BIP-342; none of them concerns the scripts of the theorems. C129_multisig assumes at most 982 elements on the stack. A witness program that is zero as a number is unspendable (C129_zero_program), hence the exception.

### C130 — What the script builder appends does, when evaluated, what the builder's methods say (proved)

* Code: bitcoin/src/blockdata/script/builder.rs; bitcoin/src/blockdata/script/owned.rs; bitcoin/src/blockdata/script/instruction.rs; bitcoin/src/blockdata/script/mod.rs; primitives/src/script/builder.rs
* Model: no new code: the builder and iterator of Script/Script.lean and Script/Num.lean, against the evaluator of C128 and C129
* Proof: the tiling of C33 and consensus parsing have the same pieces (`ops_tiles`, `ops_stuck`); runs that differ only in the number of operations agree as long as the limit is not reached (`run_count`), so that one opcode can be replaced by two and back
* Theorems in: `Props/C130.lean`
* Note: The evaluator is that of C128 and C129 (what opcodes do to the stack is a parameter). C130_push_verify holds for every machine on whose stacks the VERIFY forms do what the opcode and OP_VERIFY do (`Lawful`); the machine of C129 is shown to be one (`lawful_std`). C130_push_verify_limit: the exception about the limit of operations is real. C130_push_slice and the comparison in C130_push_verify concern scripts to which opcodes are appended after a complete opcode; after a cut off push the appended bytes become data.

### C131 — What the library says about a script is what verification finds (partial)

* Code: bitcoin/src/blockdata/script/borrowed.rs; primitives/src/script/borrowed.rs; bitcoin/src/blockdata/script/instruction.rs
* Model: no new code: `isPushOnly`, `redeemScript`, `witnessVersion` of Script/, against the evaluator of C128 and C129
* Proof: by C130_instructions the library sees the opcodes that evaluation sees; induction over the opcodes gives the stack of a push-only script (`run_values`)
* Theorems in: `Props/C131.lean`
* Note: The code refutes the full claim: redeem_script is documented to follow BIP-16, but is None for a push-only script signature in which a number is pushed by OP_1NEGATE or OP_1 to OP_16, also where spending with it is valid (C131_redeem_script_fails). C131_redeem_script_partial: what it returns is the script BIP-16 evaluates, and it returns it exactly if there is no such opcode. C131_multisig assumes at most 982 elements on the stack.

### C132 — The signature operations that are counted bound the signature checks that are made (proved)

* Code: bitcoin/src/blockdata/script/borrowed.rs; bitcoin/src/blockdata/transaction.rs
* Model: no new code: the counting of Script/SigOps.lean, against the evaluator of C128 and C129 with a counter (`checks`)
* Proof: induction over the opcodes with the invariant that after an executed OP_1 to OP_16 its value is on top (`After`), so that the number of keys of a following OP_CHECKMULTISIG is that value; otherwise it is at most 20
* Theorems in: `Props/C132.lean`
* Note: The evaluator is that of C128 and C129, for scripts before tapscript; signature checks are those of OP_CHECKSIG, OP_CHECKSIGVERIFY and of the loop of OP_CHECKMULTISIG and OP_CHECKMULTISIGVERIFY, which stops when the signatures are used up (Bitcoin Core stops earlier, when too few keys are left).

### C133 — Lock times in scripts: the library's comparisons are what OP_CHECKLOCKTIMEVERIFY and OP_CHECKSEQUENCEVERIFY check (proved)

* Code: units/src/locktime/absolute/mod.rs; units/src/locktime/relative/mod.rs; units/src/sequence.rs; bitcoin/src/blockdata/script/builder.rs; bitcoin/src/blockdata/transaction.rs
* Model: no new code: Units/LockTime.lean, Script/Num.lean and Bitcoin/TxHelpers.lean, against BIP-65, BIP-112 (`cltvRule`, `csvRule`), IsFinalTx and BIP-68
* Proof: arithmetic on both sides for the comparisons; for scripts, the builder's effect (C130_push_u32, C130_push_slice) and independence of the operation count (`run_count`); for spendability the witness is the transaction whose lock time or sequence number is n itself
* Theorems in: `Props/C133.lean`
* Note: The evaluator is that of C128 and C129 with BIP-65 and BIP-112 written out here; OP_DROP removes the top of the stack (a hypothesis on the open opcodes). The script theorems leave two of the 201 operations of legacy scripts to the prefix and assume that the rest has no OP_SUCCESS in tapscript (which would decide alone). Flags that only change policy (minimal pushes) are not modelled.

### C134 — Outputs for witness scripts, script trees and later witness versions are spent exactly by the intended witnesses (proved)

* Code: primitives/src/script/owned.rs; bitcoin/src/blockdata/script/owned.rs; addresses/src/witness_program.rs; bitcoin/src/taproot/mod.rs
* Model: no new code: Script/Templates.lean and Bitcoin/Taproot.lean against `verify` of C129
* Proof: a witness program of any version leaves itself on the stack (`eval_verByte`), so verification reduces to VerifyWitnessProgram (`native_verify`, `nested_verify`); for trees the control block is valid by C50_control_block and BIP-341's rule on its bytes (`valid_serialize`), and its first byte is never the annex byte
* Theorems in: `Props/C134.lean`
* Note: Verification is `verify` of C129 (VerifyScript with BIP-16, BIP-141, BIP-341, BIP-342; opcodes outside the library's scripts are a parameter; the weight budget for signature checks of BIP-342 is not modelled). The restriction to programs that do not read as false is necessary (C129_zero_program).

### C135 — Outputs without witness are spent by pushed script signatures exactly if what is pushed meets their condition (proved)

* Code: bitcoin/src/blockdata/script/builder.rs; primitives/src/script/owned.rs; addresses/src/lib.rs; bitcoin/src/blockdata/script/owned.rs
* Model: no new code: Script/Script.lean, Script/Templates.lean and Bitcoin/SignTx.lean (`multisigScript`) against `verify` of C129
* Proof: induction over the pushed elements with C130_push_slice (`run_pushes`); that the opcodes are at most OP_16 follows from the operation limit (`pushes_le`); then the evaluation of each output script from C129
* Theorems in: `Props/C135.lean`
* Note: Verification is `verify` of C129. Stated for up to 998 elements (P2PKH), 999 (P2PK, P2SH) and 982 (multisig), so that the limit of a thousand stack elements is not met while the output script runs. Redeem scripts that are witness programs are those of C134.

### C136 — What is paid to the text of an address is spendable exactly as the maker of the address meant (proved)

* Code: addresses/src/lib.rs; bitcoin/src/blockdata/script/borrowed.rs; bitcoin/src/blockdata/script/owned.rs; bitcoin/src/taproot/mod.rs
* Model: no new code: Addresses/Address.lean with the script builders, against `verify` of C129
* Proof: C75_parse and C75_display make the parsed address the one displayed (`paid`); C74_constructors gives validity; then C129, C134 and C135 for its output script
* Theorems in: `Props/C136.lean`
* Note: Verification is `verify` of C129. The hypotheses that the text exists and parses are met by every address the library makes (C75_round_trip); the theorems then hold for whatever the parser returns. For P2PKH and P2SH the script signature is one that push_slice builds, with the bounds of C135; for the addresses of P2SH with a nested witness program it is the one the library builds. For the taproot address the two kinds of witness are stated separately: one element (the key path), and elements followed by a script of the tree and its control block (the script path, where a leaf version other than TapScript succeeds without running the script, as in BIP-341); witnesses with an annex or with a script outside the tree are those of C129 and C98.

## Not expressible or left out

* secp256k1 (signing, verification, point arithmetic) and the serde data formats are external crates: parameters with
  stated laws (`Secp`, `Fmt`).
* Timing of the "constant time" functions.
* `Display`/`Debug` of error types, `Arbitrary` instances, `no_std` wrappers.
