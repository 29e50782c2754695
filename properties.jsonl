{"id": "C01", "title": "Compact size integers round-trip and have one encoding", "statement": "Encoding any u64 as a compact size and decoding the bytes with the u64 decoder returns the value and consumes exactly the encoding; the encoding has the length reported by encoded_size; and every byte string the decoder accepts is exactly the encoding of the value it returns (non-minimal encodings are rejected).", "quantifier": "every u64 value, every byte string, every trailing suffix", "why_tests_cant": "2^64 values and unbounded strings; boundaries at 0xFC/0xFD, 2^16, 2^32 and every over-long encoding must all be right", "anchors": ["consensus_encoding/src/compact_size.rs: CompactSizeEncoder::encode, encoded_size, compact_size_push_bytes, compact_size_decode_u64, CompactSizeU64Decoder"]}
{"id": "C02", "title": "Length prefixes above the limit are rejected", "statement": "The length-prefix decoder returns Ok(n) for exactly the minimal encodings of values n not larger than its limit, and an error for every other complete input.", "quantifier": "every limit and every byte string", "why_tests_cant": "the accepted set is a function of limit and all inputs", "anchors": ["consensus_encoding/src/compact_size.rs: CompactSizeDecoder::end, new_with_limit"]}
{"id": "C03", "title": "Push decoding does not depend on how the bytes are split", "statement": "For every consensus decoder built from the crate's combinators (fixed arrays, compact sizes, byte vectors, vectors, 2/3/4/6-tuples) and for the witness, transaction and block decoders, feeding the same byte string in any sequence of chunks gives the same result (value or error) and leaves the same unconsumed bytes.", "quantifier": "every decoder, every byte string, every partition of it into chunks (including empty chunks)", "why_tests_cant": "the number of chunkings is exponential and tests only try a few split points", "anchors": ["consensus_encoding/src/decode/mod.rs: Decoder", "consensus_encoding/src/decode/decoders.rs: ByteVecDecoder, ExactVecDecoderWith, VecDecoderWith, ArrayDecoder, Decoder2, Decoder3, Decoder4, Decoder6", "primitives/src/witness.rs: WitnessDecoder", "primitives/src/transaction.rs: TransactionDecoder"]}
{"id": "C04", "title": "Slice, hex, buffered and unbuffered readers decode the same object", "statement": "decode_from_slice, decode_from_hex, decode_from_read and decode_from_read_unbuffered return the same value for the same bytes; decode_from_slice and decode_from_hex reject trailing data; the buffered reader consumes exactly the object's bytes and resumes correctly after Interrupted errors.", "quantifier": "every lawful decoder, every byte string, every reader behaviour (arbitrary short reads, buffer boundaries, interrupts)", "why_tests_cant": "reader schedules are unbounded", "anchors": ["consensus_encoding/src/decode/mod.rs: decode_from_slice_internal, decode_from_slice_unbounded_internal, decode_from_hex_internal, decode_from_read_internal, decode_from_read_unbuffered_with"]}
{"id": "C05", "title": "Unbuffered reads never take a byte past the end of the object", "statement": "When decode_from_read_unbuffered succeeds, the bytes taken from the reader are exactly the object's encoding, whatever sizes the reader chooses to return, because read_limit never exceeds the number of bytes still needed.", "quantifier": "every decoder, every byte stream that continues after the object, every short-read schedule and buffer size", "why_tests_cant": "over-reading by one byte only shows for particular states and schedules", "anchors": ["consensus_encoding/src/decode/mod.rs: decode_from_read_unbuffered_with", "consensus_encoding/src/decode/decoders.rs: read_limit"]}
{"id": "C06", "title": "Encoders produce exactly the concatenation of their parts and report exact lengths", "statement": "Draining a composite encoder yields the concatenation of its fields' encodings in order with nothing lost, duplicated or reordered, and ExactSizeEncoder::len of a fresh encoder equals the number of bytes it will yield; the byte iterator yields the same bytes.", "quantifier": "every nesting of encoders and every content, including empty chunks", "why_tests_cant": "arbitrary nesting and empty chunks at every position", "anchors": ["consensus_encoding/src/encode/encoders.rs: BytesEncoder, PrefixedBytesEncoder, ArrayEncoder, SliceEncoder, PrefixedSliceEncoder, Encoder2..6", "consensus_encoding/src/encode/mod.rs: EncoderByteIter, drain_to_vec", "consensus_encoding/src/encode/iter.rs: IterEncoder"]}
{"id": "C07", "title": "Allocation is bounded by the data received", "statement": "While decoding a length-prefixed byte vector or vector, the memory reserved ahead of received data never exceeds a fixed constant (1,000,000 bytes), no matter what length the attacker claims.", "quantifier": "every claimed length and every prefix of the input", "why_tests_cant": "it is an invariant over all partial inputs", "anchors": ["consensus_encoding/src/decode/decoders.rs: ByteVecDecoder::reserve, ExactVecDecoderWith::reserve, MAX_VECTOR_ALLOCATE"]}
{"id": "C08", "title": "Transactions survive encode then decode", "statement": "For every transaction that satisfies the checks the decoder enforces, decoding its consensus encoding returns the same transaction and consumes all bytes; legacy and segwit forms both.", "quantifier": "every well-formed transaction of any size", "why_tests_cant": "infinite family; ambiguity between zero inputs and the segwit marker must be resolved for all", "anchors": ["primitives/src/transaction.rs: Transaction, TransactionEncoder, TransactionDecoder"]}
{"id": "C09", "title": "A transaction has a single accepted serialization", "statement": "If the transaction decoder accepts a byte string, re-encoding the decoded transaction reproduces exactly those bytes; so two different byte strings never decode to the same transaction.", "quantifier": "every byte string", "why_tests_cant": "serialization malleability shows only on crafted bytes (superfluous witness flag, non-minimal lengths)", "anchors": ["primitives/src/transaction.rs: TransactionDecoder::push_bytes, end, uses_segwit_serialization"]}
{"id": "C10", "title": "Decoded transactions satisfy the documented sanity rules", "statement": "Every transaction returned by the decoder has at least one output, no duplicate inputs, no null previous output unless it is a one-input coinbase, coinbase scriptSig of 2 to 100 bytes, and total output value at most 21 million bitcoin.", "quantifier": "every byte string accepted", "why_tests_cant": "it is a postcondition over all inputs", "anchors": ["primitives/src/transaction.rs: TransactionDecoder::end"]}
{"id": "C11", "title": "txid ignores witnesses, wtxid covers them", "statement": "compute_txid hashes exactly the encoding without marker, flag and witnesses, so it is unchanged by any change of witnesses; compute_wtxid hashes exactly the full consensus encoding; the two preimages coincide exactly when no segwit serialization is used.", "quantifier": "every transaction and every replacement of its witnesses", "why_tests_cant": "all transactions and all witness substitutions", "anchors": ["primitives/src/transaction.rs: compute_txid, compute_wtxid, hash_transaction"]}
{"id": "C12", "title": "ntxid ignores script signatures and witnesses", "statement": "compute_ntxid is unchanged by any change of script signatures and witnesses and equals the txid of the transaction with them removed.", "quantifier": "every transaction and every replacement of signatures/witnesses", "why_tests_cant": "all transactions and substitutions", "anchors": ["primitives/src/transaction.rs: compute_ntxid"]}
{"id": "C13", "title": "Reported sizes and weights are the sizes of the actual encodings", "statement": "total_size equals the length of the consensus encoding, base_size the length of the encoding without witness data, weight = 3*base+total and vsize = ceil(weight/4); the same for blocks.", "quantifier": "every transaction and block", "why_tests_cant": "must agree with the encoder for all shapes, including compact-size boundaries", "anchors": ["bitcoin/src/blockdata/transaction.rs: base_size, total_size, weight, vsize", "bitcoin/src/blockdata/block.rs: total_size, weight, block_base_size", "primitives/src/witness.rs: Witness::size"]}
{"id": "C14", "title": "Predicted weight equals real weight", "statement": "predict_weight applied to the script and witness element lengths of a transaction with at least one input equals that transaction's weight; predict_weight_from_slices gives the same result.", "quantifier": "every list of inputs and outputs (lengths below the u32 saturation bound)", "why_tests_cant": "infinitely many shapes; the +2 and +1-per-empty-witness corrections matter for mixed inputs", "anchors": ["bitcoin/src/blockdata/transaction.rs: predict_weight, predict_weight_internal, predict_weight_from_slices, InputWeightPrediction::new, from_slice"]}
{"id": "C15", "title": "OutPoint text form round-trips and is canonical", "statement": "Parsing the printed form of an out point returns it, and each accepted string that uses lower-case hex is the printed form of the out point it parses to.", "quantifier": "every txid, every vout, every string", "why_tests_cant": "infinite strings; leading zeros, plus signs, several colons", "anchors": ["primitives/src/transaction.rs: OutPoint Display, FromStr, parse_vout"]}
{"id": "C16", "title": "Block headers are an 80-byte bijection", "statement": "Every 80-byte string decodes to a header whose encoding is that string, and every header encodes to 80 bytes that decode back; block_hash hashes exactly those bytes.", "quantifier": "all 2^640 headers", "why_tests_cant": "state space", "anchors": ["primitives/src/block.rs: Header, HeaderDecoder, HeaderEncoder, block_hash"]}
{"id": "C17", "title": "Blocks round-trip and are canonical", "statement": "Decoding a block's encoding returns the block, and every accepted byte string is the encoding of the block it decodes to.", "quantifier": "every block and byte string", "why_tests_cant": "unbounded transaction lists", "anchors": ["primitives/src/block.rs: BlockEncoder, BlockDecoder"]}
{"id": "C18", "title": "A witness behaves like a list of byte strings", "statement": "After any sequence of push, push_slice, clear and construction from slices, len, get, get_back, last, iteration and equality agree with the plain list of elements.", "quantifier": "every operation sequence with elements of at most 4,000,000 bytes and less than 4 GiB in total", "why_tests_cant": "index table maintenance (rotate/resize) has to be right after every history", "anchors": ["primitives/src/witness.rs: Witness::push_slice, get, get_back, from_slice, clear, Iter"]}
{"id": "C19", "title": "Witness serialization round-trips and is canonical", "statement": "Decoding the encoding of a witness gives back the same elements and every accepted byte string re-encodes to itself; size() is the encoded length.", "quantifier": "every witness within the decoder limits and every byte string", "why_tests_cant": "unbounded stacks", "anchors": ["primitives/src/witness.rs: WitnessDecoder, WitnessEncoder, size"]}
{"id": "C20", "title": "The two merkle-root algorithms agree with the Bitcoin definition", "statement": "calculate_root (streaming stack algorithm) and calculate_root_batched (level by level) never panic and return the Bitcoin merkle root (odd levels padded by their last node) or None. The batched algorithm returns None exactly when the list is empty or some level contains two equal siblings, the streaming one exactly when the list is empty or two equal siblings both have complete subtrees. For every list the two answers are the same, or the combining function gives the same result on two different pairs of nodes of this very tree. The fixed-stack build gives the same answer up to 32767 leaves and None beyond.", "quantifier": "every list of leaves, every combining function", "why_tests_cant": "all lengths; the stack algorithm's flush step depends on the binary expansion of the length", "anchors": ["primitives/src/merkle_tree.rs: calculate_root, calculate_root_batched, combine"]}
{"id": "C21", "title": "A merkle root commits to the leaf list (CVE-2012-2459 safe)", "statement": "If two lists of leaves with the same tree height both have a merkle root and the roots are equal, then the lists are equal or two of the pairs hashed for the two trees collide; in particular duplicating trailing leaves never yields an accepted list with the same root.", "quantifier": "all pairs of lists, all combining functions", "why_tests_cant": "adversarial pairs of arbitrary length", "anchors": ["primitives/src/merkle_tree.rs: calculate_root", "primitives/src/block.rs: compute_merkle_root, check_merkle_root"]}
{"id": "C22", "title": "A validated block meets every block rule it claims", "statement": "Block::validate succeeds exactly when there is at least one transaction, the first one is a coinbase, the header's merkle root is the root of the txids and the witness commitment rule of BIP-141 holds.", "quantifier": "every block", "why_tests_cant": "decision logic over unbounded data", "anchors": ["primitives/src/block.rs: Block::validate, check_merkle_root, check_witness_commitment, witness_commitment_from_coinbase, compute_witness_root"]}
{"id": "C23", "title": "Partial merkle trees are complete", "statement": "Building a partial merkle tree from a block's txids and any match vector, encoding and decoding it and extracting returns exactly the matched txids with their indices and the block's merkle root.", "quantifier": "every non-empty transaction list and every match vector within the size limits", "why_tests_cant": "exponentially many match vectors, all tree shapes", "anchors": ["p2p/src/merkle_tree.rs: PartialMerkleTree::from_txids, traverse_and_build, traverse_and_extract, extract_matches"]}
{"id": "C24", "title": "Partial merkle trees are sound", "statement": "If extract_matches on any (adversarial) partial merkle tree returns the merkle root of a given transaction list whose tree has the claimed height, then each reported (txid, index) is really in that list at that index, or two of the pairs hashed for the proof and for the list collide. A partial tree is accepted exactly when it is the depth-first flattening of a pruned tree of the right shape without equal siblings, with every hash and every flag byte used.", "quantifier": "every partial merkle tree and every transaction list", "why_tests_cant": "adversarial inputs", "anchors": ["p2p/src/merkle_tree.rs: extract_matches, traverse_and_extract"]}
{"id": "C25", "title": "Block filters have no false negatives and answer the set-membership question exactly", "statement": "A BIP-158 filter written from a set of elements matches every non-empty query that contains one of them; match_any is true exactly when some query's hash value is among the filter's hash values, and match_all exactly when all are.", "quantifier": "every element set, every key and every query list", "why_tests_cant": "all sets; merge-style scanning with early exit must be right for all interleavings", "anchors": ["bitcoin/src/bip158.rs: GcsFilterWriter::finish, GcsFilterReader::match_any, match_all, map_to_range"]}
{"id": "C26", "title": "Bit streams and Golomb-Rice codes round-trip", "statement": "Reading back the bits written to a bit stream, in the same widths, returns the values written, and Golomb-Rice decoding inverts encoding for any sequence of values.", "quantifier": "every sequence of (value, width) pairs and every parameter", "why_tests_cant": "alignment changes with history", "anchors": ["bitcoin/src/bip158.rs: BitStreamReader::read, BitStreamWriter::write, flush, golomb_rice_encode, golomb_rice_decode"]}
{"id": "C27", "title": "Compact-block index lists round-trip", "statement": "The differential encoding of transaction indices in getblocktxn decodes to the sorted index list it was built from; indices that overflow are rejected, never wrapped; and the requested transactions returned are those at the given indices.", "quantifier": "every list of distinct indices below 2^64 - 1; every wire list", "why_tests_cant": "off-by-one accumulation over arbitrary lists", "anchors": ["p2p/src/bip152.rs: BlockTransactionsRequest::from_unsorted_indices, indices, BlockTransactions::from_request"]}
{"id": "C28", "title": "Compact blocks cover the block exactly once", "statement": "Every transaction of a block appears in its compact block either prefilled at its own position or as the short id at its own position among the rest, so the block's order can be rebuilt.", "quantifier": "every block and every valid prefill list", "why_tests_cant": "all lists", "anchors": ["p2p/src/bip152.rs: HeaderAndShortIds::from_block"]}
{"id": "C29", "title": "Base58 decoding inverts encoding", "statement": "Decoding the base58 text of any byte string returns that byte string (including leading zero bytes), and each accepted text is the encoding of the bytes it decodes to, so the text form is unique.", "quantifier": "every byte string and every text", "why_tests_cant": "radix conversion with arbitrary length", "anchors": ["base58/src/lib.rs: encode, decode, encode_to_buffer, build_base256"]}
{"id": "C30", "title": "Base58Check accepts exactly intact payloads", "statement": "decode_check returns a payload exactly when the text is the base58 encoding of payload followed by its 4-byte checksum; decode_check_to_array agrees with it on the payload length it expects.", "quantifier": "every text, any checksum function", "why_tests_cant": "all strings", "anchors": ["base58/src/lib.rs: decode_check, decode_check_to_array, encode_check"]}
{"id": "C31", "title": "Script builders and script parsers agree", "statement": "Iterating over the instructions of a script produced by pushing any list of opcodes and data yields back exactly those pushes and opcodes, in order, at the right byte offsets.", "quantifier": "every list of pushes below 2^32 bytes and non-push opcodes", "why_tests_cant": "all sequences and all length classes of push opcodes", "anchors": ["primitives/src/script/owned.rs: push_slice_no_opt, push_slice, push_opcode", "bitcoin/src/blockdata/script/instruction.rs: Instructions::next, InstructionIndices"]}
{"id": "C32", "title": "Minimal-push checking is exact", "statement": "instructions_minimal accepts a push exactly when it uses the shortest push opcode for its data, and scripts built with push_slice always pass it.", "quantifier": "every byte string", "why_tests_cant": "all lengths around 75/76, 255/256, 65535/65536 and all one-byte payloads", "anchors": ["bitcoin/src/blockdata/script/instruction.rs: Instructions::next, next_push_data_len", "primitives/src/script/owned.rs: push_slice"]}
{"id": "C33", "title": "Script parsing terminates, never reads out of bounds and consumes every byte once", "statement": "Walking any byte string as a script yields a finite list of instructions followed by at most one error, and the byte ranges of the instructions tile the consumed prefix.", "quantifier": "every byte string", "why_tests_cant": "adversarial scripts", "anchors": ["bitcoin/src/blockdata/script/instruction.rs: Instructions::next, kill, InstructionIndices::next"]}
{"id": "C34", "title": "Script numbers round-trip and are minimal", "statement": "write_scriptint followed by read_scriptint returns the number, read accepts exactly the minimal encodings of at most 4 bytes (unique), and push_int followed by reading the instruction returns the integer.", "quantifier": "every integer in range and every byte string", "why_tests_cant": "sign-bit and boundary handling for all values", "anchors": ["bitcoin/src/blockdata/script/mod.rs: write_scriptint, read_scriptint_non_minimal", "bitcoin/src/blockdata/script/push_bytes.rs: read_scriptint", "bitcoin/src/blockdata/script/owned.rs: push_int"]}
{"id": "C35", "title": "Script template predicates recognise exactly their templates", "statement": "is_p2pkh, is_p2sh, is_p2wpkh, is_p2wsh, is_p2tr, is_p2pk, is_op_return and witness_version are true exactly for the byte patterns of their definitions, are mutually exclusive, and each constructor's script is recognised.", "quantifier": "every byte string", "why_tests_cant": "all scripts", "anchors": ["primitives/src/script/borrowed.rs", "bitcoin/src/blockdata/script/borrowed.rs"]}
{"id": "C36", "title": "Signature-operation counting follows the consensus rule", "statement": "count_sigops(_legacy) equals the recursive consensus definition: CHECKSIG(VERIFY) count 1, CHECKMULTISIG(VERIFY) count 20 or, in accurate mode, the preceding OP_1..OP_16, and counting stops at the first malformed push.", "quantifier": "every script", "why_tests_cant": "all scripts", "anchors": ["bitcoin/src/blockdata/script/borrowed.rs: count_sigops_internal"]}
{"id": "C37", "title": "Absolute lock times round-trip and compare correctly", "statement": "LockTime from_consensus/to_consensus_u32 are inverse, heights and times are separated at 500,000,000, and is_implied_by(other) holds exactly when every chain tip that satisfies other also satisfies self (same unit).", "quantifier": "all 2^32 values and all height/time pairs", "why_tests_cant": "quantifies over pairs and chain tips", "anchors": ["units/src/locktime/absolute/mod.rs: LockTime::from_consensus, to_consensus_u32, is_satisfied_by, is_implied_by"]}
{"id": "C38", "title": "Relative lock times, sequence numbers and BIP-68", "statement": "A sequence number converts to a relative lock time exactly when bit 31 is clear, the conversion keeps type flag and 16-bit value, round-trips, and satisfaction is exactly the BIP-68 inequality; rounding seconds up or down to 512-second intervals is exact.", "quantifier": "all 2^32 sequence numbers and all chain positions", "why_tests_cant": "bit-level case analysis over all values", "anchors": ["units/src/locktime/relative/mod.rs: LockTime, NumberOfBlocks, NumberOf512Seconds", "units/src/sequence.rs: Sequence"]}
{"id": "C39", "title": "Amounts never leave the valid range", "statement": "Every Amount or SignedAmount obtained through the public API (construction, checked arithmetic, parsing, decoding, sums, conversions) is within 0..=21e14 resp. -21e14..=21e14 satoshi.", "quantifier": "every sequence of API calls", "why_tests_cant": "invariant over all histories", "anchors": ["units/src/amount/unsigned.rs", "units/src/amount/signed.rs", "units/src/amount/result.rs"]}
{"id": "C40", "title": "Checked amount arithmetic is exact", "statement": "checked add, sub, mul, div, rem and their signed versions return the mathematically exact result when it is in range and None otherwise; no wrap-around.", "quantifier": "all pairs of amounts and factors", "why_tests_cant": "2^128 pairs", "anchors": ["units/src/amount/unsigned.rs: checked_add, checked_sub, checked_mul, checked_div, checked_rem", "units/src/amount/signed.rs"]}
{"id": "C41", "title": "Amount text round-trips in every denomination", "statement": "Formatting an amount in any denomination and parsing it back returns the same amount, and parsing returns exactly value*10^k or an error, never a rounded value.", "quantifier": "all amounts, all denominations, all strings", "why_tests_cant": "infinite strings, 2^51 amounts", "anchors": ["units/src/amount/mod.rs: parse_signed_to_satoshi, fmt_satoshi_in"]}
{"id": "C42", "title": "Fee computation rounds as documented", "statement": "mul_by_weight returns the exact ceiling (or floor) of rate*weight when it fits and otherwise an error; div_by_weight_floor/ceil give the largest/smallest rate whose fee does not exceed / covers the amount; div_by_fee_rate likewise.", "quantifier": "all rates, weights and amounts", "why_tests_cant": "Galois-connection style inequalities over 2^128 pairs", "anchors": ["units/src/fee_rate/mod.rs: to_fee, mul_by_weight", "units/src/fee.rs", "units/src/amount/unsigned.rs: div_by_weight_floor, div_by_weight_ceil, div_by_fee_rate_floor, div_by_fee_rate_ceil"]}
{"id": "C43", "title": "256-bit arithmetic is arithmetic modulo 2^256", "statement": "The two-limb U256 add, sub, mul, div/rem, shifts, comparisons and byte conversions agree with integers modulo 2^256, and overflow flags are exact.", "quantifier": "all pairs of 256-bit values", "why_tests_cant": "2^512 pairs", "anchors": ["include/u256.rs"]}
{"id": "C44", "title": "Compact targets decode and encode as consensus requires", "statement": "from_compact gives mantissa*256^(exponent-3) for the valid encodings, to_compact_lossy never increases the target, keeps at least 15 significant bits, and from_compact(to_compact_lossy(t)) is idempotent; compact forms produced are canonical.", "quantifier": "all targets and all u32 compact values", "why_tests_cant": "2^256 targets", "anchors": ["units/src/pow.rs: Target::from_compact, to_compact_lossy, CompactTarget"]}
{"id": "C45", "title": "Work is inversely related to target", "statement": "to_work never panics and is min(2^256-1, floor(2^256/(target+1))); it is antitone; to_target . to_work never increases a target in 1..2^255 and keeps its work; a hash meets a target exactly when, read little-endian, it is not larger; difficulty is the saturated quotient of maximum and target.", "quantifier": "all targets", "why_tests_cant": "2^256 targets", "anchors": ["units/src/pow.rs: Target::to_work, Work::to_target", "include/u256.rs: inverse"]}
{"id": "C46", "title": "Difficulty adjustment stays within the consensus bounds", "statement": "from_next_work_required equals the consensus formula old*clamp(timespan)/expected in compact form, never exceeds the network limit and changes the target by at most a factor of four before truncation.", "quantifier": "all targets, timespans and networks", "why_tests_cant": "all values", "anchors": ["bitcoin/src/pow.rs: from_next_work_required, min_transition_threshold, max_transition_threshold"]}
{"id": "C47", "title": "Version-bits signalling", "statement": "is_signalling_soft_fork(bit) is true exactly when the top three bits are 001 and the bit (0..=28) is set.", "quantifier": "all 2^32 versions and all bit indices", "why_tests_cant": "bit-level over all values", "anchors": ["primitives/src/block.rs: Version::is_signalling_soft_fork"]}
{"id": "C48", "title": "Hash engines do not depend on how input is split", "statement": "For each Merkle-Damgard hash engine in the crate, feeding data in any sequence of input calls gives the same digest as one call with the concatenation, equals the textbook padded-block definition, and n_bytes_hashed is the total length.", "quantifier": "every byte string and every split, for any compression function", "why_tests_cant": "exponentially many splits, buffer boundary at every offset", "anchors": ["hashes/src/internal_macros.rs: engine_input_impl", "hashes/src/sha256/mod.rs: HashEngine, from_engine", "hashes/src/sha512, sha1, ripemd160"]}
{"id": "C49", "title": "HMAC and tagged hashes follow their definitions", "statement": "HMAC over any hash equals H((K^opad)||H((K^ipad)||m)) with keys longer than a block hashed first, for any split of the message; a tagged hash engine equals hashing SHA256(tag)||SHA256(tag)||m.", "quantifier": "all keys, messages and splits", "why_tests_cant": "key-length case split and all messages", "anchors": ["hashes/src/hmac/mod.rs: HmacEngine", "hashes/src/sha256t/mod.rs"]}
{"id": "C50", "title": "Taproot trees: every leaf's control block verifies", "statement": "For every sequence of builder calls that yields a complete tree, each leaf's merkle branch recomputes the tree's root hash, so the control block for it verifies against the output key; the builder accepts exactly the depth sequences of binary trees in depth-first order.", "quantifier": "every binary tree of depth at most 128 and every builder call sequence", "why_tests_cant": "unbounded trees and call sequences", "anchors": ["bitcoin/src/taproot/mod.rs: TaprootBuilder::insert, NodeInfo::combine, TaprootSpendInfo::from_node_info, ControlBlock::verify_taproot_commitment"]}
{"id": "C51", "title": "Control blocks and merkle branches have one serialization", "statement": "decode(serialize(cb)) = cb, serialize(decode(bytes)) = bytes, size() is the serialized length, and only lengths 33+32m with m<=128 are accepted.", "quantifier": "every control block and byte string", "why_tests_cant": "all lengths", "anchors": ["bitcoin/src/taproot/mod.rs: ControlBlock::decode, serialize, size", "bitcoin/src/taproot/merkle_branch"]}
{"id": "C52", "title": "Sending a script tree through its DFS form is lossless", "statement": "Rebuilding a taproot tree from the (depth, leaf) list of its leaves gives the same root hash and the same leaves with the same merkle branches.", "quantifier": "every tree without hidden nodes", "why_tests_cant": "all trees", "anchors": ["bitcoin/src/taproot/mod.rs: NodeInfo Serialize/Deserialize, TapTree"]}
{"id": "C53", "title": "Network message framing is exact", "statement": "A v1 frame is accepted exactly when it is magic, the message's command, the payload length, the first four bytes of the payload's double hash and at most 5,000,000 payload bytes that stand for the message; so a message within the payload decoder's limits (and, if Unknown, under a command name that is not listed) comes back from its encoding, and a frame with a wrong checksum, a wrong length or an over-long payload is rejected, however the bytes are split. The same round trip holds in version 2, except that Unknown messages lose their payload. The command string round-trips.", "quantifier": "all messages of all kinds, all byte strings, all ways to split them", "why_tests_cant": "all byte strings", "anchors": ["p2p/src/message.rs: CommandString, V1MessageHeader, NetworkMessage, V1NetworkMessage, V2NetworkMessage and their encoders and decoders", "p2p/src/address.rs, message_blockdata.rs, message_bloom.rs, message_compact_blocks.rs, message_filter.rs, message_network.rs: payload codecs"]}
{"id": "C54", "title": "Derivation paths round-trip", "statement": "Parsing the printed form of a derivation path gives the path back; child numbers below 2^31 are normal, others hardened, and conversion to and from u32 is a bijection.", "quantifier": "every path and every u32", "why_tests_cant": "all values", "anchors": ["key_expression/src/bip32.rs: ChildNumber, DerivationPath"]}
{"id": "C55", "title": "Sighash type bytes convert consistently", "statement": "to_u32/from_consensus conversions of ECDSA and taproot sighash types are inverse on standard values; non-standard values map to the consensus-defined behaviour.", "quantifier": "all u32 values", "why_tests_cant": "all values", "anchors": ["crypto/src/sighash.rs: EcdsaSighashType, TapSighashType"]}
{"id": "C56", "title": "Sighash caching does not change the message", "statement": "Computing any sequence of signature hashes through one SighashCache, with prevouts that describe the outputs the transaction spends, gives the same messages and errors as computing each with a fresh cache, and each equals the BIP-341, BIP-143 or legacy definition.", "quantifier": "every transaction, every sequence of calls", "why_tests_cant": "histories of cache use", "anchors": ["bitcoin/src/crypto/sighash.rs: SighashCache, segwit_v0_encode_signing_data_to, taproot_encode_signing_data_to, legacy_encode_signing_data_to"]}
{"id": "C57", "title": "Array-backed vector behaves like a list with a capacity", "statement": "ArrayVec push/try_push/pop/extend_from_slice keep the elements in order, report length, and refuse (panic / error) exactly when capacity would be exceeded.", "quantifier": "every operation sequence", "why_tests_cant": "histories", "anchors": ["internals/src/array_vec.rs: ArrayVec"]}
{"id": "C58", "title": "Stream adapters deliver and accept the same bytes", "statement": "Take, Cursor, slice and buffered readers deliver exactly the underlying bytes in order, Take stops after its limit, read_exact either fills the buffer or fails, read_to_limit reads the bytes up to the limit; decoding from a reader (buffered or not) gives what decoding from a slice gives and leaves the reader right after the object, through any chunking and interruptions; hash_reader hashes exactly the delivered bytes; write_all and drain_to_writer write all bytes or a prefix and an error.", "quantifier": "every reader or writer meeting its contract, every schedule of chunks, interruptions and errors, every lawful decoder", "why_tests_cant": "schedules", "anchors": ["io/src/lib.rs: Read, Take, Cursor, BufRead, Write", "io/src/hash.rs: hash_reader", "io/src/lib.rs: decode_from_read, decode_from_read_unbuffered, drain_to_writer"]}
{"id": "C59", "title": "ChaCha20 keystream is position-consistent and encryption is an involution", "statement": "Applying the keystream twice restores the data, applying it in pieces equals applying it at once, and seek positions the keystream correctly.", "quantifier": "every message, split and seek position", "why_tests_cant": "all splits", "anchors": ["chacha20_poly1305/src/chacha20.rs"]}
{"id": "C60", "title": "Signature byte forms round-trip", "statement": "ECDSA and taproot signatures with sighash type serialize and parse back; taproot parsing accepts exactly 64 bytes (default) or 65 bytes with a valid non-default type.", "quantifier": "every byte string", "why_tests_cant": "all strings", "anchors": ["crypto/src/taproot.rs: Signature::from_slice, serialize", "crypto/src/ecdsa.rs"]}
{"id": "C61", "title": "Compact block messages have one encoding", "statement": "The decoders of cmpctblock, getblocktxn and blocktxn accept exactly the encodings of messages within their documented limits (16-bit prefilled indices, at most 65535 entries, offsets within the compact size limit), return the message that was encoded, and give the same result however the bytes are split.", "quantifier": "every message and every byte string", "why_tests_cant": "all messages, all splits", "anchors": ["p2p/src/bip152.rs: HeaderAndShortIdsDecoder, PrefilledTransactionDecoder, BlockTransactionsRequestDecoder, BlockTransactionsDecoder"]}
{"id": "C62", "title": "SHA-2 engines compute the functions of FIPS 180-4", "statement": "The SHA-256, SHA-512, SHA-384 engines, fed a message in any pieces, return the digest FIPS 180-4 defines (message schedule, round function and constants from the standard's own description: fractional parts of roots of primes); SHA-512/256 the same with its own IV; sha256d of 64 bytes, the const (unoptimized) hash and midstates agree with the engine.", "quantifier": "every message shorter than 2^61 bytes and every division into pieces", "why_tests_cant": "Test vectors cover a handful of messages; unrolled round tables (hand-scheduled) may be wrong in a way only some inputs expose", "anchors": ["hashes/src/sha256/crypto/mod.rs", "hashes/src/sha512/crypto.rs", "hashes/src/sha384/mod.rs", "hashes/src/sha512_256/mod.rs", "hashes/src/sha256/mod.rs: Midstate"]}
{"id": "C63", "title": "HKDF follows RFC 5869", "statement": "extract is HMAC(salt, ikm); expand fills the output buffer with the first bytes of T(1)|T(2)|.. for every output of at most 255 blocks and returns the documented error for longer ones.", "quantifier": "every salt, key, info and output length", "why_tests_cant": "Tests use outputs of one to three blocks; the counter's end of range is never reached", "anchors": ["hashes/src/hkdf/mod.rs: Hkdf::new, expand"]}
{"id": "C64", "title": "The SipHash engine computes SipHash-2-4 however it is fed", "statement": "Feeding the siphash24 engine a message in any pieces, including pieces that straddle its 8-byte words, gives SipHash-2-4 of the whole message under the engine's keys.", "quantifier": "every key pair, message and division into pieces", "why_tests_cant": "the tail handling depends on the whole history of piece lengths", "anchors": ["hashes/src/siphash24/mod.rs: HashEngine::input, from_engine_to_u64, u8to64_le"]}
{"id": "C65", "title": "SHA-1, RIPEMD-160 and SHA3-256 engines compute the functions of their standards", "statement": "Fed a message in any pieces, the engines return the digests defined by FIPS 180-4 (SHA-1), the RIPEMD-160 paper and FIPS 202 (SHA3-256).", "quantifier": "every message and every division into pieces", "why_tests_cant": "test vectors cover a handful of messages", "anchors": ["hashes/src/sha1/crypto.rs", "hashes/src/ripemd160/crypto.rs", "hashes/src/sha3_256/mod.rs"]}
{"id": "C67", "title": "What a signature hash commits to", "statement": "Two calls of the taproot, segwit v0 or legacy signature hash functions that return the same hash agree on the sighash type, version, lock time and on every input, output, amount, script, annex and leaf that the sighash type says is covered, unless the hash function collides.", "quantifier": "every pair of transactions, inputs, prevouts, scripts and sighash types", "why_tests_cant": "tests compare hashes of a few transactions, not all pairs", "anchors": ["bitcoin/src/crypto/sighash.rs: taproot_encode_signing_data_to, segwit_v0_encode_signing_data_to, legacy_encode_signing_data_to"]}
{"id": "C68", "title": "Poly1305 computes the RFC 8439 authenticator however it is fed", "statement": "Feeding the Poly1305 engine a message in any pieces and asking for the tag gives the RFC 8439 value ((sum of r-powers times the padded blocks) mod 2^130-5 plus s) mod 2^128, and no intermediate sum or product of the limb arithmetic overflows.", "quantifier": "every key, message and division into pieces", "why_tests_cant": "carry chains go wrong for rare limb values; the fixed vectors do not reach them", "anchors": ["chacha20_poly1305/src/poly1305.rs: new, input, tag"]}
{"id": "C69", "title": "The ChaCha20-Poly1305 cipher is the AEAD of RFC 8439", "statement": "Encryption returns the ciphertext and tag of RFC 8439 section 2.8; decryption succeeds exactly when the given tag is the RFC's and then returns the plaintext; decryption undoes encryption; another ciphertext or other additional data are accepted with the same tag only if the one-time Poly1305 key authenticates two messages alike.", "quantifier": "every key, nonce, content shorter than 2^38-64 bytes and additional data", "why_tests_cant": "all messages and all tamperings", "anchors": ["chacha20_poly1305/src/lib.rs: encrypt, decrypt"]}
{"id": "C70", "title": "The fixed-time comparison is equality", "statement": "fixed_time_eq returns true exactly when the two slices are equal, and panics exactly when their lengths differ.", "quantifier": "every pair of slices", "why_tests_cant": "bit folding could miss differences in particular bits", "anchors": ["hashes/src/cmp.rs: fixed_time_eq"]}
{"id": "C71", "title": "Keys and WIF strings round-trip", "statement": "Public keys serialize to 33 or 65 bytes with the prefix that says whether they are compressed and parse back; private keys likewise; a WIF string parses exactly when it is the base58check text of version, key and optional compression byte, and each private key has exactly one.", "quantifier": "every public and private key, every byte string and every text", "why_tests_cant": "all keys and all malformed texts", "anchors": ["crypto/src/key.rs: LegacyPublicKey, FullPublicKey, PrivateKey, WifKey"]}
{"id": "C72", "title": "Extended keys round-trip", "statement": "encode writes the 78-byte layout of BIP-32; decode accepts exactly the layouts of valid keys whose depth-zero form has no parent; the base58check string parses back to the key; no bytes are both an xprv and an xpub.", "quantifier": "every extended private and public key, every byte string and text", "why_tests_cant": "all field combinations, including inconsistent master keys", "anchors": ["key_expression/src/bip32.rs: Xpriv::encode, Xpriv::decode, Xpub::encode, Xpub::decode, FromStr, Display"]}
{"id": "C73", "title": "BIP-32 derivation", "statement": "Child derivation computes CKDpriv and CKDpub of BIP-32 with the fields set accordingly; neutering commutes with derivation along every path without hardened children; paths compose; depth grows by the length of the path and never passes 255; everything derived from a master key survives encoding.", "quantifier": "every key, chain code, child number and path", "why_tests_cant": "path lengths and key spaces are unbounded", "anchors": ["key_expression/src/bip32.rs: Xpriv::derive_child, Xpriv::derive_xpriv, Xpub::derive_child, Xpub::derive_xpub, Xpriv::new_master"]}
{"id": "C74", "title": "Addresses and output scripts", "statement": "An address and its output script determine each other on a network: script_pubkey is the byte pattern of the address's template; from_script returns address a exactly for the script of a, on exactly the networks a is in use on; the scripts without an address are exactly those that are not pay-to-pubkey-hash, pay-to-script-hash or a witness program of allowed length; address_type is the template of the script; matches_script_pubkey is true exactly for the script of the address.", "quantifier": "every byte string, every address and every network", "why_tests_cant": "all scripts near the template boundaries and all witness versions and lengths", "anchors": ["addresses/src/lib.rs: Address::script_pubkey, address_type, matches_script_pubkey, is_valid_for_network, is_related_to_pubkey, constructors", "bitcoin/src/address.rs: from_script", "addresses/src/witness_program.rs: WitnessProgram"]}
{"id": "C75", "title": "Addresses as text", "statement": "Every address displays as the base58check text of its version byte and hash, or the BIP-173/BIP-350 text of its program, and parsing that text (segwit in either case) returns the address; every accepted text is such a text; the first characters show kind and network; no single-character change of a segwit address after the version character is accepted; require_network passes exactly the addresses of the network; network and address-type names round-trip; the parser does not panic.", "quantifier": "every address, every text, every network", "why_tests_cant": "all hashes, programs and malformed or mistyped texts", "anchors": ["addresses/src/lib.rs: Display, FromStr, from_bech32_str, from_base58_str, require_network, AddressType, KnownHrp", "network/src/lib.rs: Network"]}
{"id": "C66", "title": "with_huffman_tree minimises the expected depth", "statement": "If the weights sum to at most u32::MAX, the tree built by with_huffman_tree holds exactly the given scripts, and no binary tree with the same weights at its leaves has a smaller sum of weight times depth, whatever the tie-breaking; with at most 129 scripts it never fails, and with positive weights it never fails and no script is deeper than 45.", "quantifier": "every list of weighted scripts, every tie-breaking order, every rival tree of any shape and depth", "why_tests_cant": "the rivals are all binary trees", "anchors": ["bitcoin/src/taproot/mod.rs: TaprootBuilder::with_huffman_tree, NodeInfo::combine"]}
{"id": "C76", "title": "Signed messages: format, hash, signing and verification", "statement": "A message signature survives its 65-byte and its 88-character base64 form; the first byte is 27 plus the recovery id plus 4 for compressed keys; exactly the 65-byte strings with first byte at least 27 and a valid compact signature parse, larger first bytes being read modulo 8; a text parses exactly if it is the canonical base64 of such bytes. The message hash is double SHA-256 of the length-prefixed magic and message, and commits to the message unless SHA-256 collides on the strings hashed for the two messages. A message signed with any key verifies against the key's P2PKH address and recovers the key; verification says yes exactly for a P2PKH address of the recovered key in the form named by the signature.", "quantifier": "every message, key, signature, text, address and network, with any signature scheme meeting the stated laws", "why_tests_cant": "tests try a few messages and keys; the claim covers all texts and all address kinds", "anchors": ["bitcoin/src/sign_message.rs"]}
{"id": "C77", "title": "Genesis blocks, chain hashes, magic bytes and network parameters", "statement": "For each of the five networks the genesis block can be built without panic; it is a valid block without predecessor whose one transaction is a coinbase paying fifty bitcoin, its hash, double SHA-256 of its eighty header bytes, is the network's chain hash, and it meets proof of work at exactly the network's easiest target. A chain hash or a magic value names a network exactly if it is that network's, and magic survives its hex form. validate_pow says yes exactly if the bits decode to the required target and the hash is at most it. Ports tell networks and uses apart. Magic bytes and ports have the values other nodes use; the magic of signet is the one BIP-325 derives from the default challenge.", "quantifier": "every network, header, target, chain hash, magic and text", "why_tests_cant": "tests look at literal hashes; they do not link the block, its validity, its work, the chain hash and the lookup tables for all inputs", "anchors": ["bitcoin/src/blockdata/constants.rs", "bitcoin/src/network/mod.rs", "bitcoin/src/network/params.rs", "p2p/src/network_ext.rs", "p2p/src/lib.rs"]}
{"id": "C78", "title": "Block height in the coinbase (BIP-34)", "statement": "bip34_block_height gives a height exactly if the block version is at least 2 and the coinbase script starts with that height, below 2^31, in the unique minimal form of BIP-34; so the height is unique, what the script builder writes for a height is read back, and the only panic is a block or coinbase without inputs. Otherwise the error says why: an old version, a push in a longer form than needed (complete or not) or a number that is not minimal, a negative number, or no number at the start of the script at all.", "quantifier": "every block and every script", "why_tests_cant": "tests try a few blocks; the claim excludes every non-minimal, negative or oversized form", "anchors": ["bitcoin/src/blockdata/block.rs"]}
{"id": "C79", "title": "Service flags are sets; their text is faithful", "statement": "add, remove and has on ServiceFlags are union, difference and inclusion of sets of service numbers; the named flags are single bits with the BIP numbers. The operator ^ is difference, so it agrees with exclusive or exactly if the right side is contained in the left. The text form lists the names of the flags in order and the rest in hexadecimal; different flags have different texts.", "quantifier": "every pair of 64-bit flag sets", "why_tests_cant": "2^64 values; tests print a dozen combinations", "anchors": ["p2p/src/lib.rs"]}
{"id": "C80", "title": "Hexadecimal integers in text", "statement": "hex_uN_prefixed accepts exactly 0x or 0X followed by a number in range, hex_uN_unprefixed exactly a number in range, hex_uN exactly what either of these accepts, and no string is accepted by both; what is printed is read back. For 256 bits (Work and Target) a string of digits of any length is accepted exactly if its value fits, hex text of either case and with either prefix is 64 digits and is read back, also through serde; binary and octal text is exact and their buffers suffice.", "quantifier": "every string, every width, every value", "why_tests_cant": "tests use literals; the claim covers leading zeros, signs, non-ASCII text, every length", "anchors": ["units/src/parse_int.rs", "units/src/pow.rs", "include/u256.rs"]}
{"id": "C81", "title": "Segwit witnesses are built as the BIPs say and taproot witnesses are read by the BIP-341 rule", "statement": "p2wpkh, p2wsh, p2tr_key_spend, push_ecdsa_signature and push_p2tr_script_spend give exactly the documented elements. A witness is read as a key path spend exactly if one element remains after removing the BIP-341 annex, and as a script path spend exactly if at least two remain and the last is a well-formed control block; script, leaf version, control block and annex are the BIP's. What push_p2tr_script_spend puts in, the accessors give back. The documented assurance that only real taproot spends are read as script path spends fails for every P2WPKH witness.", "quantifier": "every list of witness elements, every script, control block, annex, signature and key", "why_tests_cant": "tests check a few fixed witnesses; number and content of elements are unbounded", "anchors": ["bitcoin/src/blockdata/witness.rs", "bitcoin/src/taproot/mod.rs"]}
{"id": "C82", "title": "The floating-point value of a 256-bit integer is correctly rounded", "statement": "U256::to_f64, on which difficulty_float and Work::log2 rest, never overflows and returns the IEEE 754 double nearest to the value among all finite doubles, ties to the one with even last bit; it is monotone, and exact for every value that is a double, in particular below 2^53.", "quantifier": "every 256-bit integer, against every finite double", "why_tests_cant": "2^256 inputs; the tests compare ten values, few near rounding boundaries", "anchors": ["include/u256.rs", "bitcoin/src/pow.rs"]}
{"id": "C83", "title": "Every SHA-256 back end computes SHA-256, whatever the processor", "statement": "The SHA-NI, ARM, SSE4.1, AVX2 and portable implementations of block compression and of the batched double hash of 64-byte inputs agree with FIPS 180-4; the run-time and compile-time dispatch therefore gives the same digest, the same result of hash_64_many and the same batched merkle root on every processor, and hash_64_many panics exactly when the slices differ in length.", "quantifier": "every combination of processor features, every chaining state, every sequence of blocks, every list of 64-byte inputs and output buffers of any length", "why_tests_cant": "a test run exercises the one back end its processor selects; the input space of a block alone is 2^512", "anchors": ["hashes/src/sha256/crypto/mod.rs", "hashes/src/sha256/crypto/sse41.rs", "hashes/src/sha256/crypto/avx2.rs", "hashes/src/sha256/crypto/x86_shani.rs", "hashes/src/sha256/crypto/arm_sha2.rs", "hashes/src/sha256d/mod.rs", "primitives/src/merkle_tree.rs"]}
{"id": "C84", "title": "The text of a script shows every instruction and every error", "statement": "A script without parse errors prints as the names of its opcodes and its pushed data in hexadecimal, separated by single spaces; no other script prints the same text. The text contains an error mark exactly if iterating over the instructions meets an error. The 256 opcode names are pairwise different and the two naming functions differ only for 0x00.", "quantifier": "every byte string, every opcode byte", "why_tests_cant": "injectivity is a claim about all pairs of scripts; the tests compare a few fixed scripts with fixed strings", "anchors": ["primitives/src/script/mod.rs", "bitcoin/src/blockdata/opcodes.rs", "bitcoin/src/blockdata/script/borrowed.rs", "primitives/src/opcodes.rs"]}
{"id": "C85", "title": "Decisions on transactions follow the consensus and policy rules", "statement": "Explicit replaceability is BIP-125's rule; the absolute lock time check is IsFinalTx for the next block; the effective value of a coin is its value minus a fee that covers the rate, never out of range and antitone in rate and weight; predictions for ground signatures equal the weight of such inputs; the dust amount equals Bitcoin Core's threshold at the default rate and at custom rates above 13 sat/kvB; a transaction verifies exactly if every input spends a known output that the consensus library accepts, the error is that of the first failing input, and with a closure that removes outputs no double spend passes.", "quantifier": "every transaction, chain tip, fee rate, coin value, grinding level, script, verification library and map of spent outputs", "why_tests_cant": "the rules compare arbitrary 32-bit sequence numbers, lock times, heights and times over any number of inputs; tests check a few transactions", "anchors": ["bitcoin/src/blockdata/transaction.rs", "bitcoin/src/policy.rs", "bitcoin/src/consensus_validation.rs", "bitcoin/src/blockdata/script/borrowed.rs"]}
{"id": "C86", "title": "Amounts survive the trip through floating point", "statement": "Converting an amount to f64 in any denomination never panics and gives the nearest double, ties to even, with the sign of the amount; converting that double back gives the same amount. from_float_in and from_btc accept exactly the doubles that are the nearest double of an amount in range and return that amount; every other double, infinities and NaN are refused, and Amount refuses negative doubles. The conversion is strictly increasing, so different amounts have different doubles.", "quantifier": "every Amount and SignedAmount, all six denominations, every 64-bit pattern of a double", "why_tests_cant": "there are 2.1e15 amounts and 2^64 doubles; the round trip depends on the shortest decimal text of each double", "anchors": ["units/src/amount/unsigned.rs", "units/src/amount/signed.rs"]}
{"id": "C87", "title": "Expressions over amounts are exact or an error", "statement": "An expression built from amounts, signed amounts, weights and fee rates with the operators + - * / % and unary minus, their assignment forms, integer and non-zero divisors, in any mix of plain values and NumOpResults, never panics. Its result is Valid exactly when every operation in it has an exact result that its type can hold, and then it holds the exact value (fees rounded up, quotients towards zero). An error is never spurious, is_div_by_zero is reported only if a division by zero took place, and is_overflow only if something overflowed.", "quantifier": "every expression of any size and shape over valid amounts, weights and fee rates", "why_tests_cant": "the expressions are unbounded trees; each operator has four overloads with separately written error handling", "anchors": ["units/src/result.rs", "units/src/amount/result.rs", "units/src/fee.rs", "units/src/internal_macros.rs"]}
{"id": "C88", "title": "Peer addresses keep the socket they announce", "statement": "An Address built from a socket carries exactly its 16 address octets (IPv4 as ::ffff:a.b.c.d), its port and the given services; sent over the wire and decoded by the peer it yields the same socket again. Only version 2 onion addresses are refused. For BIP155 addresses the conversions to and from IP addresses are inverse, non-IP networks are refused with the error that names them, and a message about an IP address is decoded to the same socket.", "quantifier": "every IPv4 and IPv6 socket, every address value and every BIP155 address", "why_tests_cant": "2^128 addresses; tests cover a handful of ranges", "anchors": ["p2p/src/address.rs"]}
{"id": "C89", "title": "User agents say what was put into them", "statement": "A user agent built with UserAgent::new, add_client and push_comment comes out exactly when no name and no comment contains / ( ) : and the text has at most 256 characters (otherwise the code panics); the text is the one BIP14 prescribes; and it determines the names, versions and comments it was built from.", "quantifier": "any number of clients with any names, versions and any number of comments", "why_tests_cant": "unbounded builder sequences over arbitrary text; ambiguity is a property of pairs of sequences", "anchors": ["p2p/src/message_network.rs"]}
{"id": "C90", "title": "Chains of headers commit to their contents", "statement": "HeadersMessage::is_connected holds exactly when every header names the hash of the one before it, and then the tip hash and the number of headers determine all headers, unless two of the headers collide. A BIP157 filter header commits to every filter and to the start of its chain. Exactly one alert is the final alert, the one with the published fields.", "quantifier": "header lists and filter chains of any length, every hash function", "why_tests_cant": "the chains are unbounded and the claim compares two arbitrary chains", "anchors": ["p2p/src/message.rs", "p2p/src/message_filter.rs", "bitcoin/src/bip158.rs", "p2p/src/message_network.rs"]}
{"id": "C91", "title": "Values survive serde in every data format", "statement": "Hashes and byte arrays, 256-bit numbers, heights, times, lock times, sequences, weights, versions, child numbers, witness and leaf versions, scripts, witnesses, out points and values serialized with serde_as_consensus are read back unchanged by every data format that keeps serde's contract, in text and in binary; what is read always keeps the rules of its type, whatever was stored, and reading does not panic on lock times.", "quantifier": "every data format (every answer to a request that does not fit what was stored), every value, every stored data", "why_tests_cant": "the repository tests JSON and bincode; the claim is for all formats, and the out point bug below is invisible in both", "anchors": ["hashes/src/macros.rs", "include/array_newtype.rs", "primitives/src/hash_types/mod.rs", "units/src/pow.rs", "units/src/locktime/absolute/mod.rs", "units/src/locktime/relative/mod.rs", "primitives/src/script/mod.rs", "primitives/src/witness.rs", "primitives/src/transaction.rs", "consensus_encoding/src/serde_as_consensus.rs"]}
{"id": "C92", "title": "Amounts and fee rates survive serde", "statement": "An amount, signed or not, written with as_sat, as_btc or as_str is read back exactly by every data format, and so are lists of amounts and optional amounts; whatever was stored, an amount that is read is in range. A fee rate written in whole units is read back rounded down or up to a unit as the module says.", "quantifier": "every amount, fee rate, list and option of them, every data format, every stored data", "why_tests_cant": "the claim is for all amounts through doubles and all formats; the repository tests a few values with JSON", "anchors": ["units/src/amount/serde.rs", "units/src/fee_rate/serde.rs"]}
{"id": "C93", "title": "Taproot trees and control blocks survive serde", "statement": "A taproot tree without hidden nodes, a taproot leaf, a merkle branch and a control block written with serde are read back as the same value; whatever was stored, what is read is the root and the merkle paths of a binary tree of height at most 128, branches have at most 128 hashes, and reading never panics.", "quantifier": "every tree, leaf, branch and control block, every data format, every stored data", "why_tests_cant": "the claim is for all trees and all formats; the repository tests one tree with serde_test, where integer widths are not told apart", "anchors": ["bitcoin/src/taproot/mod.rs", "bitcoin/src/taproot/merkle_branch/buf.rs", "crypto/src/key.rs"]}
{"id": "C94", "title": "Networks, addresses, keys, paths and signatures survive serde", "statement": "Networks (both vocabularies), network kinds, addresses, extended keys, derivation paths, sighash types, WIF keys, public keys, key pairs and signatures written with serde are read back as the same value by every data format, and the texts or bytes that are read as a value are exactly its encodings.", "quantifier": "every value of these types, every data format, every stored text", "why_tests_cant": "the claim is for all values, all texts and all formats; the repository tests a few values with JSON and bincode", "anchors": ["network/src/lib.rs", "addresses/src/lib.rs", "key_expression/src/bip32.rs", "crypto/src/key.rs", "crypto/src/sighash.rs", "crypto/src/taproot.rs", "crypto/src/ecdsa.rs", "internals/src/serde.rs"]}
{"id": "C95", "title": "A tweaked key pair signs for the tweaked public key", "statement": "Tweaking a key pair for taproot gives the secret key of BIP-341, whose public key, parity included, is what tweaking the public key gives and is the output key of the tree with that merkle root; a key-path signature by it verifies under the output key. One side panics exactly if the other does; the sign of the internal key does not matter. Private keys, key pairs, full, legacy and x-only public keys are converted consistently, and script-path and ECDSA signatures verify under the signer's key in every form.", "quantifier": "every secret key, every script tree up to height 128, every merkle root, hash and sighash type", "why_tests_cant": "the sign of the key and of the result decide which branch is taken, for all keys and all tweaks; the repository tests a few vectors", "anchors": ["crypto/src/key.rs", "bitcoin/src/crypto/sighash.rs", "bitcoin/src/taproot/mod.rs"]}
{"id": "C96", "title": "Weights and plain unit arithmetic", "statement": "Converting a weight to virtual bytes or kilo weight units rounds down to the largest, up to the smallest, number of units on that side; building a weight from units fails exactly when the product is not a u64, and otherwise both roundings give the number back. Checked operations of weights and fee rates give the exact result or nothing. A program of +, -, *, /, % over weights, fee rates, heights, median times or intervals returns its exact mathematical value when every intermediate value can be held, in builds with and without overflow checks; otherwise it panics with overflow checks, and without them a program of +, - and * gives the exact value modulo the size of the type. Sums likewise. Median-time intervals convert to units of 512 seconds by rounding down or up, failing exactly when the count exceeds u16. Weights survive their decimal and hexadecimal texts.", "quantifier": "all u64 weights and fee rates, all u32 heights and intervals, all operator programs of any size, all lists to sum, both build modes", "why_tests_cant": "The operators are exercised on a few literals in debug builds; release builds wrap, and no test evaluates arbitrary compositions.", "anchors": ["units/src/weight.rs", "units/src/fee_rate/mod.rs: checked_add, checked_sub, checked_mul, checked_div, operators, Sum", "units/src/block.rs: operators, Sum, to_relative_mtp_interval_floor, to_relative_mtp_interval_ceil"]}
{"id": "C97", "title": "Comparisons are lawful", "statement": "Transactions, their inputs, outputs, out points and witnesses, and taproot leaves, are totally ordered, and compare as equal exactly when they are equal; witnesses are equal exactly when their elements are. The order does not depend on the platform. Serialized signatures compare by the bytes in use, whatever lies in the rest of the buffer, and the same way against slices. Seeds and authentication codes are equal exactly when their bytes are, and comparing them never panics. Taproot nodes are equal exactly when they compare as equal.", "quantifier": "all pairs and triples of values, all byte contents of unused buffer space, both byte orders, all hash functions (or an explicit collision)", "why_tests_cant": "Order laws quantify over triples; tests compare a few literals on one platform and never compare a hidden node with the leaf it hides.", "anchors": ["primitives/src/witness.rs: Witness derives Ord, encode_cursor", "primitives/src/transaction.rs: Ord for Transaction, derived Ord of TxIn, TxOut, OutPoint", "crypto/src/taproot.rs: SerializedSignature", "crypto/src/ecdsa.rs: SerializedSignature", "bitcoin/src/taproot/mod.rs: Ord, PartialEq for NodeInfo", "key_expression/src/bip32.rs: PartialEq for Bip32Seed"]}
{"id": "C98", "title": "What the library signs, a node accepts", "statement": "Take an unsigned transaction and, for each input, keys whose address (pay to public key hash with either key form, pay to witness public key hash, the same nested in script hash, m-of-n multisig in pay to witness script hash, taproot key path with or without a script tree, taproot script path) has the script of the output spent. Signing input after input the way the repository's examples do, with one sighash cache, any mix of kinds and any sighash types, succeeds. Only script signatures and witnesses change. Every input of the signed transaction then satisfies the spending condition of its output: the hashes match, the signatures verify against the digests of the signed transaction (original algorithm, BIP-143, BIP-341), the control block proves the leaf. The signed transaction can be encoded and decodes to itself. If all outputs are spent by witnesses alone, the transaction id does not change.", "quantifier": "all transactions with at most 2^32 inputs, all mixes of output kinds over the inputs, all keys, trees up to depth 128, sighash types, hash functions and curves that obey the signature laws", "why_tests_cant": "The examples and tests sign one or two fixed inputs and never validate the result; mixes of kinds and sighash types, storing results while a shared cache is in use, and the interaction of address, sighash, signature and witness code cannot be enumerated.", "anchors": ["bitcoin/examples/sign-tx-segwit-v0.rs: main", "bitcoin/examples/sign-tx-taproot.rs: main", "bitcoin/src/crypto/sighash.rs: SighashCache", "bitcoin/src/blockdata/witness.rs: p2wpkh, p2tr_key_spend, push_p2tr_script_spend", "bitcoin/src/taproot/mod.rs: control_block", "crypto/src/key/mod.rs: tap_tweak", "addresses/src/lib.rs: script_pubkey"]}
{"id": "C99", "title": "A wallet can spend what its watch-only copy receives", "statement": "Export the extended public key of an account as text. A watch-only copy that has only this text shows, for every path of normal steps and every kind of address made from one key (pay to public key hash, pay to witness public key hash, nested, taproot), exactly the address of the private key the wallet derives from the seed at the account path followed by that path; below a hardened step it shows nothing. Whoever parses the shown text and checks the network pays to the script of that key. Any unsigned transaction that spends outputs so received is signed by the wallet from the seed, and every input then meets the spending condition of its output.", "quantifier": "all seeds, account paths, receive paths, kinds, networks, transactions and numbers of inputs, sighash types; all hash functions and curves that obey the laws of key addition and signatures", "why_tests_cant": "The chain of extended key text, public derivation, address text, script, private derivation, tweak, sighash and signature is tested link by link on fixed vectors; that the links fit for every seed, path and mix of kinds cannot be sampled.", "anchors": ["bitcoin/examples/bip32.rs: main", "key_expression/src/bip32.rs: Xpub::derive_from_path, Xpriv::derive_from_path, to_private_key, to_keypair, to_x_only_public_key, FromStr for Xpub", "addresses/src/lib.rs: p2pkh, p2wpkh, p2shwpkh, p2tr, from_str, require_network", "bitcoin/examples/sign-tx-segwit-v0.rs", "bitcoin/examples/sign-tx-taproot.rs"]}
{"id": "C100", "title": "What a light client concludes is true of the block", "statement": "A client holds a connected chain of headers whose tip is the tip of the honest chain of the same length. If a merkle block with its header at position k is accepted and reports a transaction id at a position, then the transaction with that id is, up to witnesses, the transaction at that position of the honest valid block at k, whatever number of transactions the merkle block claims; unless two of the strings hashed collide. This needs that no transaction involved has a serialization of 64 bytes without witnesses: with one the merkle block can report a transaction that is in no block. The merkle block an honest node makes from a valid block is accepted and reports exactly the requested transactions with their positions. If filters agree with the honest filter header, and the filter for block k does not match a query, then block k neither pays to nor spends from any script of the query, unless two of the strings hashed collide.", "quantifier": "all hash functions, header chains and positions, valid blocks, merkle blocks from any peer with any claimed count, transactions, filter chains and queries", "why_tests_cant": "Tests check proofs made by the library or a few damaged ones. That no proof of any shape and claimed size convinces the client of a transaction that is not there is a statement about all trees against all blocks, and the 64-byte exception is not hit by chance.", "anchors": ["p2p/src/merkle_tree.rs: MerkleBlock::from_block_with_predicate, extract_matches", "p2p/src/message.rs: HeadersMessage::is_connected", "primitives/src/block.rs: Block::validate", "bitcoin/src/bip158.rs: BlockFilter::new_script_filter, match_any", "primitives/src/transaction.rs: compute_txid"]}
{"id": "C101", "title": "A block hash identifies one valid block", "statement": "Two blocks that pass validation and have the same block hash are equal: the same header, the same transactions in the same order, and the same witnesses, or two of the strings hashed for them collide. Already the merkle root in the header determines transactions and witnesses. This holds for blocks of any two sizes, and needs that no transaction of the two blocks has a serialization of 64 bytes without witnesses: with such transactions there are two different valid blocks with one header.", "quantifier": "all hash functions and all pairs of valid blocks of decodable transactions, of any sizes", "why_tests_cant": "It is a statement about all pairs of blocks; mutated blocks in tests are rejected one by one, and a second block with the same root cannot be found by sampling.", "anchors": ["primitives/src/block.rs: Block::validate, check_merkle_root, check_witness_commitment, compute_witness_root, Header::block_hash", "primitives/src/merkle_tree.rs: calculate_root", "primitives/src/transaction.rs: compute_txid, compute_wtxid"]}
{"id": "C102", "title": "Compact block relay delivers the block", "statement": "For every block of at most 65535 decodable transactions: the version 2 compact block made from it with any valid list of prefilled positions, sent over the wire to a BIP-152 receiver whose pool has no other transaction with a short id of the block, leads to a request that names only transactions the receiver does not have and that were not prefilled, and the answer made from that request, again over the wire, completes exactly the block. If nothing is missing the block is complete without a request. Whatever the peers send and the pool contains, a completed block that validates and has the hash of a valid block is that block, or listed hash inputs collide.", "quantifier": "all blocks, nonces, prefill lists, pools, hash functions and build modes; for the second part all messages", "why_tests_cant": "It composes six codecs and three difference encodings over every pattern of known and unknown transactions; the tests in the crate exercise each message on single fixed vectors.", "anchors": ["p2p/src/bip152.rs: HeaderAndShortIds::from_block, ShortId::with_siphash_keys, BlockTransactionsRequest::from_unsorted_indices, BlockTransactionsRequest::indices, BlockTransactions::from_request, encoders and decoders", "primitives/src/block.rs: Block::validate"]}
{"id": "C103", "title": "Transactions, blocks, headers and scripts survive their hexadecimal text", "statement": "Display, LowerHex and UpperHex of transactions, blocks, headers and witnesses write the digits of the consensus encoding, with the prefix of #, truncated to the precision and padded to the width as aligned; without a precision the text has exactly the larger of the width and its own length. The text without options is read back by FromStr in either case, and the texts read as an object are exactly the digits of its encoding up to the case of letters; text with # is refused. Every text of 160 hexadecimal digits, and no other, is a header. Scripts survive their text with and without length prefix, and reading one form as the other never returns the script.", "quantifier": "all objects, all formatting options, all texts", "why_tests_cant": "The formatter has independent width, precision, alignment, fill, case and prefix; the tests check one flag on one header and fixed transactions.", "anchors": ["primitives/src/hex_codec.rs: HexPrimitive::fmt_hex", "primitives/src/transaction.rs: FromStr, Display, LowerHex, UpperHex for Transaction", "primitives/src/block.rs: FromStr, Display, LowerHex, UpperHex for Block and Header", "primitives/src/witness.rs: LowerHex, UpperHex", "primitives/src/script/borrowed.rs: to_hex_string_prefixed, to_hex_string_no_length_prefix", "primitives/src/script/owned.rs: from_hex_prefixed, from_hex_no_length_prefix", "consensus_encoding/src/encode/mod.rs: drain_to_hex, encode_to_hex, EncoderByteIter", "consensus_encoding/src/decode/mod.rs: decode_from_hex"]}
{"id": "C104", "title": "Cutting slices and arrays loses nothing and stays inside them", "statement": "bitcoin_as_chunks of any slice at any place of its memory region makes arrays of exactly N elements without reading outside the slice; the arrays and a remainder shorter than N are the slice in order. A store through chunk i of bitcoin_as_chunks_mut replaces that chunk and nothing else in the slice or in the region. get_array is the window at the offset exactly when it lies in the slice, and panics only if offset + N overflows in builds with overflow checks. split_first_chunk and split_last_chunk recompose to the slice, return None exactly for shorter slices and do not panic. sub_array, split_array, get_static, first, split_first and split_last return exactly the named parts.", "quantifier": "all element types, regions, slices, chunk sizes, offsets", "why_tests_cant": "Memory safety of the unsafe casts is about all lengths and positions; tests check a handful of lengths and see no write outside the slice.", "anchors": ["internals/src/slice.rs: bitcoin_as_chunks, bitcoin_as_chunks_mut, get_array, split_first_chunk, split_last_chunk", "internals/src/array.rs: sub_array, split_array, get_static, first, split_first, split_last"]}
{"id": "C105", "title": "Hash types as text", "statement": "Identifiers of blocks, transactions, merkle nodes, witness commitments and filters are shown from the last byte to the first, all other hash types from the first to the last. Display, LowerHex and UpperHex write the digits of the bytes in that order; FromStr reads them back in either case, and reads exactly the digits of a hash up to the case of letters. The text of an identifier is the number of its bytes in little-endian order; a block hash meets a target exactly if the number its text shows is at most the target. A hash_newtype declaration that compiles gets the first direction attribute it has, or the direction of what it wraps; unknown attributes are refused.", "quantifier": "all hash types of the library, all hashes, all texts; all attribute lists of hash_newtype declarations", "why_tests_cant": "Wrong order still round-trips, and tests compare a few constants; the acceptance claim is about all strings.", "anchors": ["hashes/src/macros.rs: impl_hex_string_traits, hash_newtype, hash_newtype_get_direction, hash_newtype_forbid_direction", "primitives/src/hash_types/generic.rs", "bitcoin/src/crypto/sighash.rs: LegacySighash, SegwitV0Sighash", "p2p/src/message_filter.rs: FilterHash, FilterHeader", "bitcoin/src/pow.rs: Target::is_met_by"]}
{"id": "C106", "title": "Streams of the standard library work through the bridge", "statement": "Errors of the crate survive conversion to the standard library and back. Errors of the standard library keep their payload, and their kind exactly if the crate lists it, otherwise Other; only errors with a payload or of a bare kind come back unchanged. Interruptions stay interruptions and nothing else becomes one. FromStd of ToStd of a stream is the stream. A wrapped stream delivers the same bytes as the stream, so an object at its start is decoded whatever pieces and interruptions it comes in, and the stream is left after it. Writes and flushes reach the stream and give its answer.", "quantifier": "all streams, errors, payload types, decoders, objects", "why_tests_cant": "Depends on the interleaving of short reads, interruptions and errors of any stream.", "anchors": ["io/src/bridge.rs: FromStd, ToStd, impl_our", "io/src/error.rs: ErrorKind::from_std, ErrorKind::to_std, From<std::io::Error> for Error, From<Error> for std::io::Error"]}
{"id": "C107", "title": "A tap tree lists each of its scripts once, with a proof of membership", "statement": "A script tree of height at most 128 that hides nothing is accepted as a TapTree. Its script_leaves behaves under every mix of next and next_back as a double-ended queue over the scripts in the depth-first order of the tree with children sorted by hash: size hints are exact, exhaustion is permanent, and after as many calls as scripts each script was returned exactly as often as the tree holds it. Each entry carries a branch that leads from its leaf hash to the root, and depth does not panic. A tree with a hidden part is refused.", "quantifier": "all trees of height at most 128, all call sequences, all hash functions", "why_tests_cant": "Quantifies over tree shapes and interleavings of calls from both ends.", "anchors": ["bitcoin/src/taproot/mod.rs: TapTree::script_leaves, ScriptLeaves, LeafNodes, ScriptLeaf::from_leaf_node, LeafNode::depth, TapTree::try_from"]}
{"id": "C108", "title": "A fee planned before signing suffices for the transaction that is signed", "statement": "A wallet whose outputs are of the six kinds of C98 predicts the weight of its unsigned transaction from the constants of InputWeightPrediction and from the lengths it knows, and then signs. The plan never fails; the weight of the signed transaction is at most the planned weight, with equality when every ECDSA signature has the greatest DER length of a low-S signature; the planned fee is that of mul_by_weight on the planned weight; and if the outputs spent cover the new outputs plus that fee, the signed transaction pays at least the fee rate.", "quantifier": "all transactions, all locks of the six kinds in any order and number, all keys, trees, sighash types, fee rates, all hash functions and curves whose DER signatures have at most 71 bytes", "why_tests_cant": "The signed sizes depend on keys, trees and signatures chosen at run time; the existing tests compare the constants with single recorded transactions.", "anchors": ["bitcoin/src/blockdata/transaction.rs: predict_weight, InputWeightPrediction::new, from_slice, P2WPKH_MAX, NESTED_P2WPKH_MAX, P2PKH_COMPRESSED_MAX, P2PKH_UNCOMPRESSED_MAX, P2TR_KEY_DEFAULT_SIGHASH, P2TR_KEY_NON_DEFAULT_SIGHASH", "primitives/src/transaction.rs: Transaction::weight", "units/src/fee_rate/mod.rs: FeeRate::mul_by_weight"]}
{"id": "C109", "title": "Conversations over a stream: every message is answered in order, and the handshake completes", "statement": "A program that reads version-1 messages from a stream and reacts to each (the loops of p2p/examples handshake.rs and ping-pong.rs) does, however the bytes are cut into pieces, exactly what it would do with the messages as a list: it has received precisely the complete ones so far, in order, and has written the reactions to them, in order. The ping-pong program answers each ping with a pong of the same nonce and each version with a verack and goes on waiting. Two handshake programs connected to each other, in whatever order they run and whatever pieces arrive, never panic, take at most as many steps as there are bytes, and when nothing more can happen both have ended regularly, each having received the other's version and then verack, with no byte left under way; from every reachable state that end is reached.", "quantifier": "all lists of messages that satisfy the decoders' limits, all magics, all version messages, all ways to cut the streams, all interleavings of the two programs, all checksum hash functions", "why_tests_cant": "Interleavings and cuts are chosen by the network; the examples are compiled, never run against each other.", "anchors": ["p2p/examples/handshake.rs: main", "p2p/examples/ping-pong.rs: main", "p2p/src/message.rs: V1NetworkMessage::new, V1NetworkMessageEncoder, V1NetworkMessageDecoder, Pong::from_ping", "consensus_encoding/src/decode/mod.rs: decode_from_read"]}
{"id": "C110", "title": "The round-trip assertions of the fuzz targets hold for every input", "statement": "For each type with a target under fuzz/fuzz_targets/bitcoin/encoding_roundtrip: whatever byte string decodes to a value, pushing the chunks of that value's encoder straight into a fresh decoder, without a buffer, ends in finitely many rounds without a panic and yields the same value; for a framed v1 message this holds although the header is computed anew. For blocks, transactions, witnesses, scripts, prefilled transactions and AddrV2 the encoding is the input itself. Given any input in one push, the array, byte-vector, compact-size and two-part decoders either report an error, or ask for more and then refuse to end, or return the value that the leading bytes stand for and leave exactly the rest; a compact size that took 1, 3, 5 or 9 bytes has a value that needs that many.", "quantifier": "all byte strings of any length, all message kinds, all checksum hash functions, all array sizes above 0", "why_tests_cant": "The fuzz targets sample the input space; the assertion is about all inputs.", "anchors": ["fuzz/src/lib.rs: check_roundtrip, check_script_roundtrip, stream_encode_decode", "fuzz/fuzz_targets/bitcoin/encoding_roundtrip", "fuzz/fuzz_targets/bitcoin/deserialize_block.rs", "fuzz/fuzz_targets/bitcoin/deserialize_transaction.rs", "fuzz/fuzz_targets/bitcoin/deserialize_witness.rs", "fuzz/fuzz_targets/bitcoin/deserialize_script.rs", "fuzz/fuzz_targets/consensus_encoding", "consensus_encoding/src/decode/decoders.rs", "consensus_encoding/src/encode/encoders.rs"]}
{"id": "C111", "title": "Generated values keep the rules of the types", "statement": "Whatever an Arbitrary generator draws, it does not panic and the value it gives is one the crate's own decoder gives: encoding and decoding it returns it. In particular a generated transaction (sizes within the decoder's limits) has an output, no outpoint spent twice, the null outpoint only as its single input with a 2 to 100 byte script, and outputs of at most 21 million bitcoin; version, lock time, output scripts, all drawn outpoints but the null one and the data of each kept input are as drawn; its weight is what the target arbitrary_transaction asserts; and every transaction the decoder can give is generated. The same round trip holds for blocks, witnesses, command strings, AddrV2 addresses, fee filters, partial merkle trees and extended private keys; and for inventory entries, block transaction requests, extended public keys, user agents and input weight predictions under the conditions stated by the theorems.", "quantifier": "all values drawn from the unstructured input, all transactions within the decoder's limits", "why_tests_cant": "Fuzz and property tests rely on the generators; a generator that leaves out or miscarries a class of values makes them blind to it, which running them cannot show.", "anchors": ["primitives/src/transaction.rs: Arbitrary for Transaction, TxIn", "primitives/src/block.rs: Arbitrary for Block", "primitives/src/witness.rs: Arbitrary for Witness", "p2p/src/address.rs: Arbitrary for AddrV2", "p2p/src/message.rs: Arbitrary for CommandString, FeeFilter, NetworkMessage", "p2p/src/message_blockdata.rs: Arbitrary for Inventory", "p2p/src/message_network.rs: Arbitrary for UserAgent", "p2p/src/merkle_tree.rs: Arbitrary for PartialMerkleTree", "p2p/src/bip152.rs: Arbitrary for BlockTransactionsRequest", "key_expression/src/bip32.rs: Arbitrary for Xpriv, Xpub", "bitcoin/src/blockdata/transaction.rs: Arbitrary for InputWeightPrediction", "fuzz/fuzz_targets/bitcoin/arbitrary_transaction.rs", "fuzz/fuzz_targets/bitcoin/arbitrary_block.rs", "fuzz/fuzz_targets/bitcoin/arbitrary_witness.rs"]}
{"id": "C112", "title": "What the text and script fuzz targets assert holds for every input", "statement": "For every input: the target parse_outpoint finds that a parsed outpoint prints the (lower-cased) text and that decoded outpoints encode to the same bytes and survive printing and parsing; parse_amount, that parsed amounts, signed or not, survive printing and parsing; parse_int, that a text is accepted by the prefixed parser or the unprefixed one, never both, and then by the one that takes either; arbitrary_script, that instructions read under the minimality rule and pushed back rebuild the script and that an address recognised in a script pays to it; arbitrary_addrv2, that IP addresses read from an AddrV2 give it back; parse_address, that a parsed address prints the text.", "quantifier": "all byte strings, scripts and network addresses", "why_tests_cant": "A fuzzer samples inputs; the claim is that none makes a target fail.", "anchors": ["fuzz/fuzz_targets/bitcoin/parse_outpoint.rs", "fuzz/fuzz_targets/units/parse_amount.rs", "fuzz/fuzz_targets/units/parse_int.rs", "fuzz/fuzz_targets/bitcoin/arbitrary_script.rs", "fuzz/fuzz_targets/p2p/arbitrary_addrv2.rs", "fuzz/fuzz_targets/bitcoin/parse_address.rs"]}
{"id": "C113", "title": "The example programs print the hashes that were signed", "statement": "For every transaction, index, amount and script: the program sighash.rs returns for a P2WPKH input exactly if the witness is a standard signature and a compressed key and the signature is valid for the BIP-143 hash, so that an input with an empty script signature and the key of its output is accepted exactly if the program returns, and every P2WPKH input the signing examples sign passes; for P2WSH and legacy multisignature inputs it returns exactly the hashes for each signature's own hash type. The assertions of script.rs hold for every public key hash, those of io.rs for every outpoint, and the encoder of encoder.rs writes the format its comment gives.", "quantifier": "all raw transactions, indexes, amounts, scripts, keys, hashes and outpoints", "why_tests_cant": "Each example runs on one transaction; users copy the code for theirs.", "anchors": ["bitcoin/examples/sighash.rs", "bitcoin/examples/script.rs", "bitcoin/examples/io.rs", "consensus_encoding/examples/encoder.rs"]}
{"id": "C114", "title": "A signed input stays valid under exactly the changes its hash types allow", "statement": "For every transaction with a valid input of the supported kinds, in any other transaction which keeps what the hash types of its signatures cover, the input is valid: signers can work on copies and combine their inputs whatever the types, anyone can add inputs around ones signed with ALL|ANYONECANPAY or NONE|ANYONECANPAY, outputs can be replaced under NONE, and transactions signed with SINGLE|ANYONECANPAY can be joined. Conversely, two transactions in which the input has the same BIP-143 or BIP-341 hash agree on all that is covered, or a hash collision is known (or, for BIP-143 SINGLE, an output hashing to zeroes).", "quantifier": "all transactions, spent outputs, inputs, hash types, hash functions and curves", "why_tests_cant": "Tests check digests of fixed transactions; the freedom to change a transaction after signing quantifies over every other transaction.", "anchors": ["crypto/src/sighash.rs", "bitcoin/src/crypto/sighash.rs", "bitcoin/examples/sign-tx-segwit-v0.rs", "bitcoin/examples/sign-tx-taproot.rs"]}
{"id": "C115", "title": "A client that follows headers keeps exactly the chains of the consensus rules", "statement": "For the main network and signet, whatever headers arrive: a client that checks the previous hash, the bits against next_target_after and the work with validate_pow never panics, keeps a chain in which every header has the bits of the 2016-block rule and the work they demand, and accepts every such chain as a whole. Its total work is the sum of 2^256/(target+1) without overflow unless a hash below 2^64 was found. Two chains from one start with one tip hash, of whatever lengths, are equal or a hash collision (or a preimage of the start's previous hash) is known. With validate_pow alone only the targets are by the rules.", "quantifier": "all starts within the network limit, all sequences of fewer than 2^32 incoming headers, all hash functions", "why_tests_cant": "Tests check single retargets of historic blocks; the guarantee is an invariant over every sequence of headers a peer may send.", "anchors": ["bitcoin/src/pow.rs", "bitcoin/src/blockdata/block.rs", "units/src/pow.rs"]}
{"id": "C116", "title": "The errors of amount parsing tell the truth", "statement": "Whatever text is given with whatever denomination, the error says what is wrong with it: an empty text and a lone minus sign are named as such; a text that is too long is reported with its length; a reported underscore is the first character after the sign or follows another one; a reported invalid character is at the reported byte position, is neither digit nor underscore, is a dot only after an earlier dot, and only digits, underscores and dots precede it; a reported excess of precision is at the first digit beyond the decimals of the denomination (in satoshi: a leading dot or the first character that is not 0 after the dot); out of range is reported only for magnitudes above 21 million bitcoin (or a minus sign on an unsigned amount), with the right sign. The printed message is true of the text.", "quantifier": "all texts (any Unicode characters), all denominations, signed and unsigned amounts", "why_tests_cant": "Tests compare a few messages; the claim is about the position and the wording for every malformed text.", "anchors": ["units/src/amount/error.rs", "units/src/amount/mod.rs", "units/src/amount/unsigned.rs", "units/src/amount/signed.rs"]}
{"id": "C117", "title": "Lock heights and lock times are read exactly, and the errors of lock times tell the truth", "statement": "An absolute lock height or lock time is read from a decimal text exactly when the text is an optional sign and digits denoting a number within the limits of its kind, from a hexadecimal text likewise with or without the prefix, and printed values are read back. The message of every failing call on lock times is a true sentence about the call: the limits and numbers it names, the unit of the lock, what it was tried with, and what makes the value impossible to encode.", "quantifier": "all texts, all numbers, all absolute and relative locks, all heights, times and chain tips", "why_tests_cant": "Tests compare a few texts and a few messages; the claim is that every message names the true unit, bound and value.", "anchors": ["units/src/locktime/absolute/mod.rs", "units/src/locktime/absolute/error.rs", "units/src/locktime/relative/mod.rs", "units/src/locktime/relative/error.rs", "units/src/parse_int.rs"]}
{"id": "C118", "title": "The errors of decoding say what is wrong with the bytes, and where", "statement": "For compact sizes, byte strings, transaction inputs and outputs, witnesses, transactions, headers and blocks: decoding returns a given error exactly when the bytes have the fault the error describes, at the place it names, after complete and valid encodings of everything before that place. An error that is not about the end of the bytes stays the same whatever bytes follow. The numbers in the messages are true of the bytes, and after \"m more bytes required\" fewer than m bytes never suffice.", "quantifier": "all byte strings, all errors, all continuations, all limits", "why_tests_cant": "Tests compare the errors of some broken encodings; the claim is an equivalence for every byte string and every error value, including the place and the number.", "anchors": ["consensus_encoding/src/error.rs", "consensus_encoding/src/compact_size.rs", "consensus_encoding/src/decode/decoders.rs", "primitives/src/transaction.rs", "primitives/src/witness.rs", "primitives/src/block.rs"]}
{"id": "C119", "title": "The errors of reading base58 texts and addresses tell the truth", "statement": "Reading a base58 text into an array returns a given error exactly when the text has the fault the error describes, with the character, lengths and checksums it names; encoding into a fixed buffer fails exactly when the text is longer than the message says. The messages of all errors of base58, of address texts and of witness programs are true sentences about the input.", "quantifier": "all byte strings as texts, all array sizes, all hash functions, all payloads, all witness versions and programs", "why_tests_cant": "Tests compare the errors of a few texts; the claim is an equivalence for every text and array size.", "anchors": ["base58/src/lib.rs", "base58/src/error.rs", "addresses/src/lib.rs", "addresses/src/error.rs", "addresses/src/witness_program.rs", "internals/src/error/input_string.rs"]}
{"id": "C120", "title": "The errors of keys, WIF texts, extended keys and derivation paths tell the truth", "statement": "Reading a public key, a WIF text, an extended key (bytes or text), a number, a child number or a derivation path returns a given error exactly when the input has the fault the error describes, and each input has at most one such fault. Derivation returns an error only if a child would have depth 256 or a child of a public key is hardened, and names which. The messages of all these errors are true sentences about the input.", "quantifier": "all byte strings and texts, all hash functions, all curves satisfying the laws of the external library, all keys and paths", "why_tests_cant": "Tests compare the errors of some keys and paths; the claim is an equivalence for every input.", "anchors": ["crypto/src/key.rs", "key_expression/src/bip32.rs"]}
{"id": "C121", "title": "The errors of Taproot builders, control blocks, signatures and signature hashes tell the truth", "statement": "Adding a leaf to a Taproot builder in any state it can reach, finishing a builder, building a Huffman tree, decoding a control block or Merkle branch, reading a Taproot or ECDSA signature (bytes or text), asking for a Taproot or segwit signature hash, making an annex and reading a signed-message signature return a given error exactly when the input has the fault the error describes, and the message of the error is a true sentence about the input.", "quantifier": "all sequences of builder calls, all script weights, all byte strings and texts, all transactions, spent outputs, indices and sighash types, all hash functions and curves", "why_tests_cant": "Tests provoke each error once or twice; the claim is an equivalence for every input and every history of a builder.", "anchors": ["bitcoin/src/taproot/mod.rs", "crypto/src/taproot.rs", "crypto/src/ecdsa.rs", "bitcoin/src/crypto/sighash.rs", "bitcoin/src/sign_message.rs"]}
{"id": "C122", "title": "The errors about blocks, Merkle proofs, block requests and proofs of work tell the truth", "statement": "Checking a partial Merkle tree or a Merkle block, validating a block, reading the height out of its coinbase, checking its proof of work and answering a request for the transactions of a compact block return a given error exactly when the input has the fault the error describes, and the message of the error is a true sentence about the input.", "quantifier": "all partial Merkle trees (any counts, flags and hashes), all blocks, headers, targets, requests and hash functions", "why_tests_cant": "Tests provoke each error with one damaged proof or block; the claim is an equivalence for every proof, including those built to run out of bits or hashes deep inside the tree.", "anchors": ["p2p/src/merkle_tree.rs", "p2p/src/bip152.rs", "primitives/src/block.rs", "bitcoin/src/blockdata/block.rs"]}
{"id": "C123", "title": "What the model-checking harnesses assert holds for every input", "statement": "The Kani harnesses of the repository never fail: for amounts (signed and unsigned) the operators agree with integer addition and subtraction whenever the harness's assumptions hold, and the assumptions hold exactly when the sum (and difference) is an amount; pushing elements into an array vector and reading them back gives the elements, for every capacity, exactly if they fit; no intermediate sum or product of the multiplication of a 256-bit integer by a word overflows.", "quantifier": "all pairs of integers; all capacities and numbers of elements; all 256-bit integers and words", "why_tests_cant": "Kani checks the harnesses with bounds on loops and fixed capacities and only where it can be run; the claim has no bounds.", "anchors": ["units/src/amount/verification.rs", "internals/src/array_vec.rs", "bitcoin/src/pow.rs"]}
{"id": "C124", "title": "The errors about scripts, script numbers, out points, witness versions, sizes and indices tell the truth", "statement": "Iterating over a script, pushing and reading script numbers, parsing an out point or a 256-bit number, converting to a witness version, hashing a redeem or witness script, filling a push buffer, indexing inputs and outputs, extracting a midstate and expanding a key fail exactly when the input has the fault the error describes, and the message of the error is a true sentence about the input; a push buffer never holds 2^32 bytes or more.", "quantifier": "all scripts (both iteration modes), all numbers and byte strings, all texts, all sequences of calls on a push buffer, all transactions and indices, all hash engines", "why_tests_cant": "Tests provoke each error once; the claim is an equivalence for every byte string, including pushes cut off at any byte and texts of any length, and an invariant over every sequence of buffer calls.", "anchors": ["bitcoin/src/blockdata/script/mod.rs", "bitcoin/src/blockdata/script/push_bytes.rs", "primitives/src/transaction.rs", "primitives/src/script/push_bytes.rs", "primitives/src/witness_version.rs", "include/u256.rs"]}
{"id": "C125", "title": "The errors of the peer-to-peer layer and of networks tell the truth", "statement": "Making or decoding a command, finishing the decoding of a version-1 message, reading a short id, ending the decoding of a network address, decoding bloom flags, reject codes, fee filters, compact block versions and feature ids and data, and parsing networks, magic bytes and chain hashes fail exactly when the input has the fault the error describes, and the message of the error is a true sentence about the input.", "quantifier": "all texts, all byte strings, all headers and payloads, all address kinds and lengths, all networks", "why_tests_cant": "Tests provoke each error once; the claim is an equivalence for every text and byte string and a statement on every message that can be printed.", "anchors": ["p2p/src/message.rs", "p2p/src/address.rs", "p2p/src/message_compact_blocks.rs", "p2p/src/message_bloom.rs", "p2p/src/message_network.rs", "p2p/src/bip152.rs", "p2p/src/bip434.rs", "p2p/src/lib.rs", "network/src/lib.rs"]}
{"id": "C126", "title": "The errors of integers, denominations, block intervals and addresses as text tell the truth, and the text of a lock time determines it", "statement": "Parsing a decimal integer or a hexadecimal one (with, without or with optional prefix, also of 256 bits), a denomination, an amount with denomination, an address type, converting a block interval to a number of blocks, requiring a network of an address and finding the address of a script fail exactly when the input has the fault the error describes, and the message quotes the input and is a true sentence about it. The texts of lock times, plain and alternate, determine the lock time.", "quantifier": "all texts, all integer widths, all intervals, addresses, networks and scripts, all lock times", "why_tests_cant": "Tests provoke each error once and print a few lock times; the claim is an equivalence for every text and injectivity of the printed texts over all lock times.", "anchors": ["units/src/parse_int.rs", "units/src/amount/error.rs", "units/src/amount/mod.rs", "units/src/block.rs", "addresses/src/error.rs", "addresses/src/lib.rs", "bitcoin/src/address.rs", "units/src/locktime/absolute/mod.rs", "units/src/locktime/relative/mod.rs"]}
{"id": "C127", "title": "What is printed for debugging shows of secrets only fingerprints, and tells public values apart", "statement": "`Debug` of a seed shows the first four bytes of its SHA-256 and of an HKDF secret eight bytes of a tagged hash, and nothing else, so that two secrets print the same exactly if these bytes agree; `Debug` of an extended private key shows nothing of the private key (without std) or only what the curve library shows of it; keyed hash engines do not show their key. `Debug` of amounts, sequence numbers, lock times, witnesses, addresses and network addresses is different for different values.", "quantifier": "all seeds, keys, engines, amounts, sequence numbers, lock times, witnesses and addresses", "why_tests_cant": "Tests compare one printed text with a literal; that a secret influences the text only through a fingerprint, and that no two public values print alike, are statements about all pairs of values.", "anchors": ["key_expression/src/bip32.rs", "hashes/src/hkdf/mod.rs", "hashes/src/hmac/mod.rs", "hashes/src/siphash24/mod.rs", "units/src/amount/unsigned.rs", "units/src/sequence.rs", "units/src/locktime/absolute/mod.rs", "primitives/src/witness.rs", "addresses/src/lib.rs", "p2p/src/address.rs"]}
{"id": "C128", "title": "The class of an opcode predicts what evaluation does with it", "statement": "`Opcode::classify` never panics, and its classes mean what they say under the consensus rules: an illegal opcode fails any script that contains it, executed or not; a return opcode fails where it is executed and is passed over where it is not; a success opcode, and nothing else, makes a tapscript succeed on every stack; a no-op changes nothing; a push opcode pushes its bytes or number; ordinary opcodes are exactly those with an implementation of their own. A script that is_provably_unspendable accepts fails from every stack.", "quantifier": "all opcodes in both contexts, all scripts, stacks, nested conditions and meanings of the ordinary opcodes", "why_tests_cant": "Tests compare the class of a few opcodes with a literal; that scripts of any shape and nesting behave as the class says needs a model of evaluation and induction over scripts.", "anchors": ["bitcoin/src/blockdata/opcodes.rs", "bitcoin/src/blockdata/script/borrowed.rs"]}
{"id": "C129", "title": "Scripts the library builds can be spent by those who meet their condition and by nobody else, and what it signs passes verification", "statement": "Evaluated under the consensus rules, the script of new_p2pkh succeeds exactly on a key of the hash and a signature for it, that of new_p2pk exactly on a signature for the key, that of new_p2sh (on its own) exactly on a preimage, a multisignature script exactly on the required number of signatures in the order of the keys over an empty element, and that of new_op_return never. Outputs of new_p2wpkh, and outputs of new_p2tr with one witness element, pass verification exactly under the conditions of BIP-141 and BIP-341. Every input of a transaction signed as in C98 passes script verification, unless its witness program is a zero.", "quantifier": "all keys, hashes, signatures, stacks, transactions and spent outputs, all hash functions and curves, all meanings of the opcodes that do not occur", "why_tests_cant": "The library has no interpreter; tests compare script bytes with literals or need libbitcoinconsensus on a few vectors. That the bytes mean the intended condition for every stack needs a model of evaluation.", "anchors": ["primitives/src/script/owned.rs", "bitcoin/src/blockdata/script/owned.rs", "addresses/src/lib.rs", "bitcoin/examples/sign-tx-segwit-v0.rs", "bitcoin/examples/sign-tx-taproot.rs"]}
{"id": "C130", "title": "What the script builder appends does, when evaluated, what the builder's methods say", "statement": "The instruction iterator reads from every script the opcodes and data that consensus evaluation reads, and reports an error exactly where evaluation finds a push that is cut off. push_slice appends one opcode that pushes exactly the given data. push_int_unchecked, push_lock_time, push_relative_lock_time and push_sequence push the shortest encoding of the number. push_verify has the effect of OP_VERIFY at this place: a script built with it succeeds on a stack whenever the same script with OP_VERIFY does, and only then, except that a VERIFY form counts as one operation instead of two against the limit of 201.", "quantifier": "all scripts before and after the appended part, all data shorter than 2^32 bytes, all integers an i64 can hold except its minimum, all stacks, in and outside branches that are not executed, legacy and tapscript", "why_tests_cant": "The library cannot execute scripts; tests compare bytes. Equality of effect in every context, including not executed branches and the operation limit, needs a model of evaluation.", "anchors": ["bitcoin/src/blockdata/script/builder.rs", "bitcoin/src/blockdata/script/owned.rs", "bitcoin/src/blockdata/script/instruction.rs", "bitcoin/src/blockdata/script/mod.rs", "primitives/src/script/builder.rs"]}
{"id": "C131", "title": "What the library says about a script is what verification finds", "statement": "is_push_only is true exactly of the scripts that consensus counts as push-only, and evaluating such a script puts the values of its opcodes on the stack, in order, and nothing else. redeem_script of a push-only script signature is the script that BIP-16 evaluates: the element that evaluation leaves on top of the stack. witness_version is the version of the witness program that consensus sees in the script. A script recognised as pay to public key hash, pay to public key, pay to script hash or multisignature can be spent exactly under the condition of the template, for the hash, key or keys in it, however those are pushed; a script recognised as OP_RETURN never.", "quantifier": "all scripts, all stacks, all hash functions, signature checks and meanings of other opcodes", "why_tests_cant": "The library cannot execute scripts; tests compare its answers with literals for a few scripts. Agreement with evaluation for every script needs a model of it.", "anchors": ["bitcoin/src/blockdata/script/borrowed.rs", "primitives/src/script/borrowed.rs", "bitcoin/src/blockdata/script/instruction.rs"]}
{"id": "C132", "title": "The signature operations that are counted bound the signature checks that are made", "statement": "Evaluating a script on any stack makes at most as many signature checks as count_sigops counts, whatever branches are taken and even if evaluation fails, and count_sigops_legacy counts at least as many. The same holds for the redeem script that evaluation of a push-only script signature leaves on top of the stack and the per-input count for pay to script hash, and for the scripts of version 0 witness programs and the per-input count for witnesses.", "quantifier": "all scripts, stacks, witnesses, signature checkers and meanings of other opcodes", "why_tests_cant": "The library cannot execute scripts; tests compare counts with literals. That the count bounds the work of verification for every script and stack, which is what the limit is for, needs a model of evaluation.", "anchors": ["bitcoin/src/blockdata/script/borrowed.rs", "bitcoin/src/blockdata/transaction.rs"]}
{"id": "C133", "title": "Lock times in scripts: the library's comparisons are what OP_CHECKLOCKTIMEVERIFY and OP_CHECKSEQUENCEVERIFY check", "statement": "`n OP_CHECKLOCKTIMEVERIFY` passes exactly if n, read as a lock time, is_implied_by the lock time of the transaction and the input enables lock times. `n OP_CHECKSEQUENCEVERIFY` passes exactly if n, read as a relative lock time, is_implied_by_sequence the sequence number of the input and the transaction has at least version 2; if n is no relative lock time it always passes. A script that begins with push_lock_time or push_relative_lock_time, the opcode and OP_DROP succeeds exactly if that holds and the rest succeeds. is_satisfied_by of either kind says exactly whether a transaction that passes the opcode can be mined in the next block.", "quantifier": "all u32 numbers, lock times, transactions, inputs, stacks, rests of scripts and chain positions", "why_tests_cant": "The library cannot execute scripts; tests compare a few literals. That the comparisons agree with BIP-65, BIP-112, BIP-68 and finality for every number, with the unused bits, the thresholds and the disable flags, cannot be enumerated.", "anchors": ["units/src/locktime/absolute/mod.rs", "units/src/locktime/relative/mod.rs", "units/src/sequence.rs", "bitcoin/src/blockdata/script/builder.rs", "bitcoin/src/blockdata/transaction.rs"]}
{"id": "C134", "title": "Outputs for witness scripts, script trees and later witness versions are spent exactly by the intended witnesses", "statement": "Under the consensus rules: an output of to_p2wsh for a script s is spent exactly with an empty script signature and a witness that ends with a script of the same hash, of at most 10000 bytes, which succeeds on the elements before it, each of at most 520 bytes; so is the output within P2SH with the script signature of p2sh_p2wsh, and likewise for keys with p2sh_p2wpkh. An output for a finished tree of scripts is spent with any script of the tree and the control block that control_block returns for it exactly if that script succeeds (scripts of other leaf versions need not). An output for a witness program of version 1 to 16 that is not P2TR, in particular of new_p2a, is spent by every witness. In all cases the program must not read as false (all zero).", "quantifier": "all scripts, keys, trees of height at most 128, witness programs, transactions, inputs, witnesses, hash functions and curves", "why_tests_cant": "The library does not execute scripts, so its tests can only compare output scripts with literals; that the output is spendable by exactly these witnesses is a statement about every witness and every script.", "anchors": ["primitives/src/script/owned.rs", "bitcoin/src/blockdata/script/owned.rs", "addresses/src/witness_program.rs", "bitcoin/src/taproot/mod.rs"]}
{"id": "C135", "title": "Outputs without witness are spent by pushed script signatures exactly if what is pushed meets their condition", "statement": "A script signature built with push_slice leaves exactly the pushed elements on the stack, and is push-only. With it and an empty witness (and with no other witness) an output of new_p2pkh is spent exactly if the last two elements are a signature and a key of the hash; of new_p2pk, if the last is a signature for the key; of an m-of-n CHECKMULTISIG script, if the elements end with an empty one and m signatures, each for a later key than the one before; of to_p2sh, if the last element is a script of the same hash that succeeds on the others. An output of new_op_return is spent by no input at all.", "quantifier": "all lists of elements of at most 520 bytes whose script signature is within the consensus limits, all keys, scripts, hashes, transactions, inputs, hash functions and curves", "why_tests_cant": "The library does not execute scripts; its tests compare built scripts with literals. That minimal pushes (numbers by their own opcodes, the four push forms) leave the very elements, and who can spend with them, is a statement about all lists of elements and all scripts.", "anchors": ["bitcoin/src/blockdata/script/builder.rs", "primitives/src/script/owned.rs", "addresses/src/lib.rs", "bitcoin/src/blockdata/script/owned.rs"]}
{"id": "C136", "title": "What is paid to the text of an address is spendable exactly as the maker of the address meant", "statement": "Let an address be made by p2wsh, p2shwsh, p2wpkh, p2shwpkh, p2pkh, p2sh of a redeem script, p2tr with a key and a tree of scripts, or for the anchor; let it be displayed (in either case where the format has one), the text parsed, and coins paid to the output script of the parsed address. Then an input spends that output exactly if it meets the condition the address was made for: a script of the hash that succeeds on the other elements, a key of the hash and a signature of it, a signature for the tweaked key, or, for a witness that ends with a script of the tree and its control block, that this script succeeds on the other elements (always, for leaf versions other than TapScript).", "quantifier": "all scripts, keys, trees of height at most 128, networks, checksum and hash functions, curves, transactions, inputs and witnesses", "why_tests_cant": "The claim joins construction, text, parsing, output script and script evaluation, which the tests only meet one at a time and on fixed vectors; the library does not execute scripts at all.", "anchors": ["addresses/src/lib.rs", "bitcoin/src/blockdata/script/borrowed.rs", "bitcoin/src/blockdata/script/owned.rs", "bitcoin/src/taproot/mod.rs"]}
