{
 "claims": [
  {
   "property": "C01",
   "status": "proved",
   "theorems": [
    "Btc.C01_encode_shortest",
    "Btc.C01_roundtrip",
    "Btc.C01_canonical"
   ],
   "note": "Encoder output is the unique shortest form; decode inverts encode; every accepted encoding is canonical."
  },
  {
   "property": "C02",
   "status": "proved",
   "theorems": [
    "Btc.C02_limit",
    "Btc.C02_exceeds"
   ],
   "note": "Length prefixes above the limit are rejected; values within are returned."
  },
  {
   "property": "C03",
   "status": "proved",
   "theorems": [
    "Btc.C03_split",
    "Btc.C03_split_built",
    "Btc.C03_split_tx",
    "Btc.C03_split_block"
   ],
   "note": "Any lawful push decoder is split independent; lawfulness is proved for every combinator and carried through composition, and for the hand-written witness and transaction state machines. Header and block decoders included."
  },
  {
   "property": "C04",
   "status": "proved",
   "theorems": [
    "Btc.C04_slice",
    "Btc.C04_no_trailing",
    "Btc.C04_hex",
    "Btc.C04_read",
    "Btc.C04_read_error",
    "Btc.C04_unbuffered"
   ],
   "note": "All drivers accept the same inputs with the same value (hex driver error precedence differs, success sets agree)."
  },
  {
   "property": "C05",
   "status": "proved",
   "theorems": [
    "Btc.C05_no_overread",
    "Btc.C05_limit"
   ],
   "note": "Unbuffered driver reads exactly the bytes of the value."
  },
  {
   "property": "C06",
   "status": "partial",
   "theorems": [
    "Btc.C06_tuple",
    "Btc.C06_bytes",
    "Btc.C06_option",
    "Btc.C06_prefixed_bytes",
    "Btc.C06_iter_partial",
    "Btc.C06_prefixed_slice_partial",
    "Btc.C06_iter_loses_bytes",
    "Btc.C06_len_fresh",
    "Btc.C06_len_bytes",
    "Btc.C06_len_option",
    "Btc.C06_len_midstream_wrong",
    "Btc.C06_byte_iter",
    "Btc.C06_nth",
    "Btc.C06_peek"
   ],
   "note": "Full for tuples, byte strings, options, byte iterator and fresh lengths. Two parts of the documented contract are refuted with witnesses (C06_iter_loses_bytes, C06_len_midstream_wrong); the sequence encoder theorem carries the GoodStart hypothesis that the docs ask of implementors."
  },
  {
   "property": "C07",
   "status": "proved",
   "theorems": [
    "Btc.C07_bytes",
    "Btc.C07_items",
    "Btc.C07_items_faithful"
   ],
   "note": "Byte vectors and item vectors; item types up to 1,000,000 bytes in memory. reserve_exact is modelled as giving exactly the requested capacity."
  },
  {
   "property": "C08",
   "status": "proved",
   "theorems": [
    "Btc.C08_roundtrip"
   ],
   "note": "Every transaction obeying the decoder's rules, legacy and segwit, with or without trailing data."
  },
  {
   "property": "C09",
   "status": "proved",
   "theorems": [
    "Btc.C09_canonical",
    "Btc.C09_injective"
   ],
   "note": "All drivers, by C04."
  },
  {
   "property": "C10",
   "status": "proved",
   "theorems": [
    "Btc.C10_sane",
    "Btc.C10_errors",
    "Btc.C10_rules"
   ],
   "note": "The accepted set is exactly the set of transactions obeying the rules (with C08)."
  },
  {
   "property": "C11",
   "status": "partial",
   "theorems": [
    "Btc.C11_txid_preimage",
    "Btc.C11_txid_ignores_witness",
    "Btc.C11_wtxid_preimage_partial",
    "Btc.C11_preimages_differ",
    "Btc.C11_wtxid_large_element",
    "Btc.C11_txid_commits",
    "Btc.C11_wtxid_commits"
   ],
   "note": "sha256d is an abstract function. The wtxid preimage equals the encoding for witness elements of at most 4,000,000 bytes; refuted beyond (C11_wtxid_large_element)."
  },
  {
   "property": "C12",
   "status": "proved",
   "theorems": [
    "Btc.C12_ignores_sigs",
    "Btc.C12_is_txid",
    "Btc.C12_commits"
   ],
   "note": "sha256d is an abstract function."
  },
  {
   "property": "C13",
   "status": "partial",
   "theorems": [
    "Btc.C13_tx_partial",
    "Btc.C13_base_stripped",
    "Btc.C13_parts",
    "Btc.C13_block_partial",
    "Btc.C13_large_element"
   ],
   "note": "Sizes, weights and vsize of inputs, outputs, transactions and blocks, for witness elements of at most 4,000,000 bytes; refuted beyond (C13_large_element: Witness::size iterates and stops at the large element)."
  },
  {
   "property": "C14",
   "status": "proved",
   "theorems": [
    "Btc.C14_constructors_agree",
    "Btc.C14_functions_agree",
    "Btc.C14_predict",
    "Btc.C14_new_panics"
   ],
   "note": "All inputs within the u32 bound stated in the property; beyond it new panics (C14_new_panics)."
  },
  {
   "property": "C15",
   "status": "proved",
   "theorems": [
    "Btc.C15_roundtrip",
    "Btc.C15_canonical",
    "Btc.C15_display_injective"
   ],
   "note": "Strings are UTF-8 bytes; the hex crate is modelled by its documented behaviour."
  },
  {
   "property": "C16",
   "status": "proved",
   "theorems": [
    "Btc.C16_roundtrip",
    "Btc.C16_total",
    "Btc.C16_block_hash"
   ],
   "note": "sha256d is an abstract function."
  },
  {
   "property": "C17",
   "status": "proved",
   "theorems": [
    "Btc.C17_roundtrip",
    "Btc.C17_canonical",
    "Btc.C17_injective"
   ],
   "note": ""
  },
  {
   "property": "C18",
   "status": "proved",
   "theorems": [
    "Btc.C18_list",
    "Btc.C18_eq",
    "Btc.C18_large_element_hidden",
    "Btc.C18_push_panics"
   ],
   "note": "Elements above 4,000,000 bytes are hidden by get and iter (C18_large_element_hidden); push panics at 4 GiB (C18_push_panics)."
  },
  {
   "property": "C19",
   "status": "proved",
   "theorems": [
    "Btc.C19_roundtrip",
    "Btc.C19_canonical",
    "Btc.C19_injective",
    "Btc.C19_decode_panics"
   ],
   "note": "Decoder panics on offsets of 4 GiB and more (C19_decode_panics)."
  },
  {
   "property": "C20",
   "status": "proved",
   "theorems": [
    "Btc.Merkle.C20_batched",
    "Btc.Merkle.C20_streaming",
    "Btc.Merkle.C20_agree",
    "Btc.Merkle.C20_differ_on_clash",
    "Btc.Merkle.C20_no_alloc",
    "Btc.C20_agree_hash"
   ],
   "note": ""
  },
  {
   "property": "C21",
   "status": "proved",
   "theorems": [
    "Btc.Merkle.C21_batched",
    "Btc.Merkle.C21_streaming",
    "Btc.C21_commits",
    "Btc.C21_no_duplication"
   ],
   "note": ""
  },
  {
   "property": "C22",
   "status": "proved",
   "theorems": [
    "Btc.C22_validate",
    "Btc.C22_errors"
   ],
   "note": ""
  },
  {
   "property": "C23",
   "status": "proved",
   "theorems": [
    "Btc.Pmt.C23_roundtrip",
    "Btc.Pmt.C23_canonical",
    "Btc.Pmt.C23_merkle_block"
   ],
   "note": ""
  },
  {
   "property": "C24",
   "status": "proved",
   "theorems": [
    "Btc.Pmt.C24_positions",
    "Btc.Pmt.C24_accepts",
    "Btc.Pmt.C24_sound",
    "Btc.Pmt.C24_merkle_block"
   ],
   "note": ""
  },
  {
   "property": "C25",
   "status": "proved",
   "theorems": [
    "Btc.Bip158.C25_match",
    "Btc.Bip158.C25_written",
    "Btc.Bip158.C25_filter",
    "Btc.Bip158.C25_no_false_negatives",
    "Btc.Bip158.C25_elements",
    "Btc.Bip158.C25_block_elements",
    "Btc.Bip158.C25_block",
    "Btc.Bip158.C25_keys"
   ],
   "note": "SipHash is an abstract function; sort and dedup are modelled as mergesort and adjacent dedup. n*m overflow of the filter (checks on: panic) is in C25_written."
  },
  {
   "property": "C26",
   "status": "proved",
   "theorems": [
    "Btc.Bip158.C26_written",
    "Btc.Bip158.C26_round_trip",
    "Btc.Bip158.C26_round_trip_exact",
    "Btc.Bip158.C26_read",
    "Btc.Bip158.C26_too_many",
    "Btc.Bip158.C26_golomb",
    "Btc.Bip158.C26_golomb_decode",
    "Btc.Bip158.C26_golomb_eof",
    "Btc.Bip158.C26_golomb_not_injective",
    "Btc.Bip158.C26_golomb_param"
   ],
   "note": "Bit writer/reader round trip for any sequence of fields; golomb encoding with a parameter up to 64. q<<p can lose bits: C26_golomb_not_injective."
  },
  {
   "property": "C27",
   "status": "proved",
   "theorems": [
    "Btc.Bip152.C27_indices",
    "Btc.Bip152.C27_indices_increasing",
    "Btc.Bip152.C27_round_trip",
    "Btc.Bip152.C27_unchecked_round_trip",
    "Btc.Bip152.C27_never_wrong",
    "Btc.Bip152.C27_duplicates",
    "Btc.Bip152.C27_from_request"
   ],
   "note": "The constructor panics (checks on) or yields a request whose indices() fails (checks off) on repeated indices and on the index 2^64-1: C27_duplicates. It never decodes to a different list: C27_never_wrong."
  },
  {
   "property": "C28",
   "status": "partial",
   "theorems": [
    "Btc.Bip152.C28_covers_partial",
    "Btc.Bip152.C28_refused",
    "Btc.Bip152.C28_wraps",
    "Btc.Bip152.C28_ids"
   ],
   "note": "Proved for blocks of at most 65536 transactions; refuted beyond, where the 16-bit differential index wraps (C28_wraps). SipHash and SHA-256 are abstract functions."
  },
  {
   "property": "C29",
   "status": "proved",
   "theorems": [
    "Btc.B58.C29_decode",
    "Btc.B58.C29_decode_error",
    "Btc.B58.C29_unique",
    "Btc.B58.C29_encode",
    "Btc.B58.C29_round_trip"
   ],
   "note": "Both the small-buffer and the heap path are modelled."
  },
  {
   "property": "C30",
   "status": "proved",
   "theorems": [
    "Btc.B58.C30_decode_check",
    "Btc.B58.C30_decode_check_errors",
    "Btc.B58.C30_decode_check_to_array",
    "Btc.B58.C30_encode",
    "Btc.B58.C30_encode_panics"
   ],
   "note": "sha256d is an abstract function. encode_check panics for some 90-byte payloads: C30_encode_panics."
  },
  {
   "property": "C31",
   "status": "proved",
   "theorems": [
    "Btc.Scr.C31_no_opt",
    "Btc.Scr.C31_push_slice",
    "Btc.Scr.C31_extend",
    "Btc.Scr.C31_extend_depends_on_hint",
    "Btc.Scr.C31_push_verify"
   ],
   "note": "Builder and parser agree for no-opt pushes exactly and for push_slice up to the OP_n normalisation; Extend<Instruction> is shown to depend on the size hint. push_verify covered by C31_push_verify."
  },
  {
   "property": "C32",
   "status": "proved",
   "theorems": [
    "Btc.Scr.C32_exact",
    "Btc.Scr.C32_agree",
    "Btc.Scr.C32_builder"
   ],
   "note": "instructions_minimal errors exactly at the first non-minimal push, agrees with instructions otherwise; builder output is minimal."
  },
  {
   "property": "C33",
   "status": "proved",
   "theorems": [
    "Btc.Scr.C33_tiles",
    "Btc.Scr.C33_terminates",
    "Btc.Scr.C33_indices"
   ],
   "note": "All byte strings; offsets of instruction_indices included."
  },
  {
   "property": "C34",
   "status": "proved",
   "theorems": [
    "Btc.Scr.C34_read",
    "Btc.Scr.C34_read_cltv",
    "Btc.Scr.C34_read_non_minimal",
    "Btc.Scr.C34_unique",
    "Btc.Scr.C34_bool",
    "Btc.Scr.C34_write",
    "Btc.Scr.C34_round_trip",
    "Btc.Scr.C34_push_int",
    "Btc.Scr.C34_push_u32",
    "Btc.Scr.C34_push_unchecked"
   ],
   "note": "Exact decoding conditions for read_scriptint (4 bytes), CLTV (5 bytes), non-minimal and bool; write/read round trip; push_int chooses the minimal opcode. Finding: write_scriptint(i64::MIN) panics."
  },
  {
   "property": "C35",
   "status": "proved",
   "theorems": [
    "Btc.Scr.C35_witness_version",
    "Btc.Scr.C35_exact",
    "Btc.Scr.C35_p2pk_key",
    "Btc.Scr.C35_exclusive",
    "Btc.Scr.C35_witness_exclusive",
    "Btc.Scr.C35_constructors",
    "Btc.Scr.C35_witness_program",
    "Btc.Scr.C35_script_code",
    "Btc.Scr.C35_multisig_panics",
    "Btc.Scr.C35_multisig_wraps",
    "Btc.Scr.C35_push_only",
    "Btc.Scr.C35_redeem_script",
    "Btc.Scr.C35_wrapped",
    "Btc.Scr.C35_unspendable",
    "Btc.Scr.C35_dust"
   ],
   "note": "Exact byte patterns for all templates and witness_version, pairwise exclusion, constructors, WitnessProgram::new, script code, dust. Finding: is_multisig counts keys in a u8 (panic with overflow checks, wraps without)."
  },
  {
   "property": "C36",
   "status": "proved",
   "theorems": [
    "Btc.Scr.C36_parse_exists",
    "Btc.Scr.C36_scripts",
    "Btc.Scr.C36_recursive",
    "Btc.Scr.C36_bounds",
    "Btc.Scr.C36_total",
    "Btc.Scr.C36_p2sh_not_push_only"
   ],
   "note": "Script counts equal the consensus sum over the instructions before the first malformed push; total_sigop_cost equals the saturated BIP-16/BIP-141 sum. Finding: P2SH cost counted also when scriptSig is not push only."
  },
  {
   "property": "C37",
   "status": "proved",
   "theorems": [
    "Btc.Lock.C37_from_consensus",
    "Btc.Lock.C37_to_consensus",
    "Btc.Lock.C37_constructors",
    "Btc.Lock.C37_codec",
    "Btc.Lock.C37_satisfied",
    "Btc.Lock.C37_one_sided",
    "Btc.Lock.C37_implied",
    "Btc.Lock.C37_other_unit",
    "Btc.Lock.C37_median"
   ],
   "note": "All 2^32 values, wire and text forms, satisfaction against Core's IsFinalTx rule, implication both ways, other-unit boundary cases, 11-block median."
  },
  {
   "property": "C38",
   "status": "proved",
   "theorems": [
    "Btc.Lock.C38_kinds",
    "Btc.Lock.C38_from_consensus",
    "Btc.Lock.C38_to_consensus",
    "Btc.Lock.C38_roundtrip",
    "Btc.Lock.C38_constructors",
    "Btc.Lock.C38_bip68",
    "Btc.Lock.C38_prior_block_refused",
    "Btc.Lock.C38_implied",
    "Btc.Lock.C38_implied_sound",
    "Btc.Lock.C38_implied_complete",
    "Btc.Lock.C38_seconds",
    "Btc.Lock.C38_sequence",
    "Btc.Lock.C38_height_saturating"
   ],
   "note": "All sequence numbers; satisfaction is BIP-68 as computed by Core, with an unconfirmed coin counted at tip+1. The documented case tip = mined-1 is refused (C38_prior_block_refused)."
  },
  {
   "property": "C39",
   "status": "proved",
   "theorems": [
    "Btc.Amt.C39_amount",
    "Btc.Amt.C39_signed",
    "Btc.Amt.C39_no_panic",
    "Btc.Amt.C39_exact"
   ],
   "note": "Amount/Signed are inductively generated by every modelled constructor and operation (f64 constructors, serde and Arbitrary are not modelled; the f64 ones go through the modelled string parser)."
  },
  {
   "property": "C40",
   "status": "proved",
   "theorems": [
    "Btc.Amt.C40_from_sat",
    "Btc.Amt.C40_signed_from_sat",
    "Btc.Amt.C40_unsigned",
    "Btc.Amt.C40_signed",
    "Btc.Amt.C40_conversions",
    "Btc.Amt.C40_div_nonzero",
    "Btc.Amt.C40_constructors",
    "Btc.Amt.C40_sum",
    "Btc.Amt.C40_signed_sum"
   ],
   "note": "All checked operations, conversions, NonZero divisions and sums; results also show that the unchecked u64 operations inside never overflow on valid amounts."
  },
  {
   "property": "C41",
   "status": "proved",
   "theorems": [
    "Btc.Amt.C41_parse_signed",
    "Btc.Amt.C41_parse",
    "Btc.Amt.C41_round",
    "Btc.Amt.C41_roundtrip",
    "Btc.Amt.C41_precision",
    "Btc.Amt.C41_roundtrip_signed",
    "Btc.Amt.C41_roundtrip_denomination",
    "Btc.Amt.C41_roundtrip_denomination_signed",
    "Btc.Amt.C41_width",
    "Btc.Amt.C41_lenient"
   ],
   "note": "C41_parse/_parse_signed characterise acceptance on every string exactly; round trips for all denominations, with precision, and padding. C41_lenient records that '.', '1_' and '1._5' are accepted. The alphabetic-character search for texts without a space is a parameter."
  },
  {
   "property": "C42",
   "status": "partial",
   "theorems": [
    "Btc.Amt.C42_mul_by_weight",
    "Btc.Amt.C42_to_fee",
    "Btc.Amt.C42_exact_partial",
    "Btc.Amt.C42_not_exact",
    "Btc.Amt.C42_enough",
    "Btc.Amt.C42_div_by_weight_floor",
    "Btc.Amt.C42_div_by_weight_ceil",
    "Btc.Amt.C42_div_by_fee_rate_floor",
    "Btc.Amt.C42_div_by_fee_rate_ceil",
    "Btc.Amt.C42_units",
    "Btc.Amt.C42_from_amounts",
    "Btc.Amt.C42_readers"
   ],
   "note": "The rounding of mul_by_weight is not the exact ceiling for rates that are not whole sat/kwu (C42_not_exact); C42_exact_partial covers the others and C42_enough bounds the excess."
  },
  {
   "property": "C43",
   "status": "proved",
   "theorems": [
    "Btc.U256.C43_bijection",
    "Btc.U256.C43_arith",
    "Btc.U256.C43_operators",
    "Btc.U256.C43_mul_u64",
    "Btc.U256.C43_div_rem",
    "Btc.U256.C43_bits",
    "Btc.U256.C43_bit_length",
    "Btc.U256.C43_order",
    "Btc.U256.C43_bytes",
    "Btc.U256.C43_no_overflow",
    "Btc.U256.C43_display",
    "Btc.U256.C43_from_str",
    "Btc.U256.C43_from_str_inner_plus"
   ],
   "note": "All operations against natural-number arithmetic, exact overflow flags, bytes, decimal text. Finding: FromStr accepts '+' at 38-digit chunk starts (C43_from_str_inner_plus)."
  },
  {
   "property": "C44",
   "status": "partial",
   "theorems": [
    "Btc.Pow.C44_from_compact",
    "Btc.Pow.C44_consensus_partial",
    "Btc.Pow.C44_sign_ignored",
    "Btc.Pow.C44_to_compact",
    "Btc.Pow.C44_lossy",
    "Btc.Pow.C44_idempotent",
    "Btc.Pow.C44_exact"
   ],
   "note": "from_compact is characterised exactly; it equals the consensus value except for exponents below 3 with the sign bit set (C44_sign_ignored is the witness), hence the _partial."
  },
  {
   "property": "C45",
   "status": "partial",
   "theorems": [
    "Btc.Pow.C45_work_partial",
    "Btc.Pow.C45_work_of_one",
    "Btc.Pow.C45_antitone",
    "Btc.Pow.C45_galois",
    "Btc.Pow.C45_is_met_by",
    "Btc.Pow.C45_difficulty"
   ],
   "note": "The work formula holds for every target except 1, where the code defines MAX (C45_work_of_one); everything else holds for all targets."
  },
  {
   "property": "C46",
   "status": "proved",
   "theorems": [
    "Btc.Pow.C46_formula",
    "Btc.Pow.C46_headers",
    "Btc.Pow.C46_bounds",
    "Btc.Pow.C46_limit",
    "Btc.Pow.C46_regtest",
    "Btc.Pow.C46_min_threshold_violated",
    "Btc.Pow.C46_max_threshold_wraps",
    "Btc.Pow.C46_next_target",
    "Btc.Pow.C46_time_overflow"
   ],
   "note": "Formula, bounds, header based adjustment (BIP 94), next_target_after incl. testnet walk. Refuted documentation claims: min_transition_threshold (C46_min_threshold_violated), max_transition_threshold_unchecked wrap (C46_max_threshold_wraps), u32 overflow (C46_time_overflow)."
  },
  {
   "property": "C47",
   "status": "proved",
   "theorems": [
    "Btc.Pow.C47_signalling"
   ],
   "note": "All versions, all bit indices."
  },
  {
   "property": "C48",
   "status": "proved",
   "theorems": [
    "Btc.Hashes.C48_padding",
    "Btc.Hashes.C48_engine",
    "Btc.Hashes.C48_sha3_engine",
    "Btc.Hashes.C48_bytes_hashed",
    "Btc.Hashes.C48_split",
    "Btc.Hashes.C48_drain"
   ],
   "note": "Generic over block size, length encoding and compression function; the crate's engines are instances. Byte counts below 2^61 (u64 bit length)."
  },
  {
   "property": "C49",
   "status": "proved",
   "theorems": [
    "Btc.Hashes.C49_hmac",
    "Btc.Hashes.C49_hmac_block_size",
    "Btc.Hashes.C49_hmac_sha256",
    "Btc.Hashes.C49_hmac_sha512",
    "Btc.Hashes.C49_tagged"
   ],
   "note": "HMAC generic over any engine that computes a function; instances SHA-256 and SHA-512. Tagged hash via the const midstate. Engines with blocks over 128 bytes hit an assertion: C49_hmac_block_size."
  },
  {
   "property": "C50",
   "status": "proved",
   "theorems": [
    "Btc.Taproot.C50_builder",
    "Btc.Taproot.C50_builder_result",
    "Btc.Taproot.C50_branch_root",
    "Btc.Taproot.C50_accepted",
    "Btc.Taproot.C50_prefix_accepted",
    "Btc.Taproot.C50_late_error",
    "Btc.Taproot.C50_huffman",
    "Btc.Taproot.C50_control_block",
    "Btc.Taproot.C50_binding",
    "Btc.Taproot.C50_bip341_verify",
    "Btc.Taproot.C50_bip341",
    "Btc.Taproot.C50_bip341_key_spend"
   ],
   "note": "SHA-256 abstract (tagged-hash engines proved in C49), secp256k1 abstract with its documented laws; includes with_huffman_tree for every tie-breaking, and binding up to a SHA-256 collision. Finding: a call after a complete tree may be accepted and only later rejected (C50_late_error)."
  },
  {
   "property": "C51",
   "status": "partial",
   "theorems": [
    "Btc.Taproot.C51_branch",
    "Btc.Taproot.C51_leaf_version",
    "Btc.Taproot.C51_size",
    "Btc.Taproot.C51_decode_serialize",
    "Btc.Taproot.C51_decode_serialize_partial",
    "Btc.Taproot.C51_odd_parity_lost",
    "Btc.Taproot.C51_serialize_decode",
    "Btc.Taproot.C51_lengths",
    "Btc.Taproot.C51_decodable"
   ],
   "note": "decode(serialize(cb)) = cb is false when the internal key carries odd parity (C51_odd_parity_lost): the format drops that flag although it takes part in equality. Exact result for all blocks in C51_decode_serialize."
  },
  {
   "property": "C52",
   "status": "proved",
   "theorems": [
    "Btc.Taproot.C52_round_trip",
    "Btc.Taproot.C52_tree",
    "Btc.Taproot.C52_hidden"
   ],
   "note": "Also shows that the form never deserializes when there are hidden nodes (C52_hidden). The serde data format itself is not modelled, only the (depth, leaf) sequence."
  },
  {
   "property": "C53",
   "status": "proved",
   "theorems": [
    "Btc.P2p.C53_command_try_from",
    "Btc.P2p.C53_command_round_trip",
    "Btc.P2p.C53_command_bytes",
    "Btc.P2p.C53_v1_decode",
    "Btc.P2p.C53_v1_read",
    "Btc.P2p.C53_v1_round_trip",
    "Btc.P2p.C53_v1_rejects",
    "Btc.P2p.C53_v1_checksum",
    "Btc.P2p.C53_v2_decode",
    "Btc.P2p.C53_v2_round_trip",
    "Btc.P2p.C53_short_ids",
    "Btc.P2p.C53_v2_unknown_payload_lost",
    "Btc.P2p.C53_unknown_listed",
    "Btc.P2p.C53_too_long",
    "Btc.P2p.C53_fee_filter_lossy",
    "Btc.P2p.C53_version_relay"
   ],
   "note": "The hash is a parameter. C53_v2_unknown_payload_lost, C53_unknown_listed, C53_too_long, C53_fee_filter_lossy, C53_version_relay show which messages or forms fall outside the round trip. Kind.Ok lists the payload limits of every kind."
  },
  {
   "property": "C54",
   "status": "proved",
   "theorems": [
    "Btc.Bip32.C54_raw",
    "Btc.Bip32.C54_from_idx",
    "Btc.Bip32.C54_increment",
    "Btc.Bip32.C54_child_parse",
    "Btc.Bip32.C54_child_roundtrip",
    "Btc.Bip32.C54_relative_parse",
    "Btc.Bip32.C54_absolute_parse",
    "Btc.Bip32.C54_path_roundtrip",
    "Btc.Bip32.C54_disjoint",
    "Btc.Bip32.C54_path_list",
    "Btc.Bip32.C54_children"
   ],
   "note": "Child numbers and derivation paths as text and as lists; parsing characterised exactly, including the accepted \"+\" and leading zeros."
  },
  {
   "property": "C55",
   "status": "proved",
   "theorems": [
    "Btc.Crypto.C55_from_standard",
    "Btc.Crypto.C55_from_standard_error",
    "Btc.Crypto.C55_from_consensus",
    "Btc.Crypto.C55_from_consensus_bits",
    "Btc.Crypto.C55_round_trip",
    "Btc.Crypto.C55_agree",
    "Btc.Crypto.C55_to_u32_injective",
    "Btc.Crypto.C55_is_single",
    "Btc.Crypto.C55_split",
    "Btc.Crypto.C55_tap_split",
    "Btc.Crypto.C55_tap",
    "Btc.Crypto.C55_tap_error",
    "Btc.Crypto.C55_of_ecdsa",
    "Btc.Crypto.C55_ecdsa_text",
    "Btc.Crypto.C55_tap_text",
    "Btc.Crypto.C55_text_error"
   ],
   "note": ""
  },
  {
   "property": "C56",
   "status": "proved",
   "theorems": [
    "Btc.Sighash.C56_cached",
    "Btc.Sighash.C56_sequence",
    "Btc.Sighash.C56_taproot",
    "Btc.Sighash.C56_taproot_errors",
    "Btc.Sighash.C56_taproot_paths",
    "Btc.Sighash.C56_taproot_writer",
    "Btc.Sighash.C56_p2wsh",
    "Btc.Sighash.C56_p2wpkh",
    "Btc.Sighash.C56_segwit_writer",
    "Btc.Sighash.C56_legacy",
    "Btc.Sighash.C56_legacy_writer",
    "Btc.Sighash.C56_stale_prevouts",
    "Btc.Sighash.C56_index_unchecked"
   ],
   "note": "H is a parameter. C56_cached and C56_sequence cover all histories of calls on one cache whose prevouts describe the spent outputs; C56_stale_prevouts and C56_index_unchecked show what happens outside that. C56_taproot/_p2wsh/_p2wpkh/_legacy give the BIP-341, BIP-143 and legacy definitions; *_writer cover the encode_*_to forms with failing writers."
  },
  {
   "property": "C57",
   "status": "proved",
   "theorems": [
    "Btc.AVec.C57_refines",
    "Btc.AVec.C57_refines_new",
    "Btc.AVec.C57_from_slice",
    "Btc.AVec.C57_eq",
    "Btc.AVec.C57_cmp",
    "Btc.AVec.C57_deserialize"
   ],
   "note": "ArrayVec over its 32-bit-capacity generic form; MaybeUninit storage as a list of written slots; refinement to a bounded list over all operation sequences, with panics explicit."
  },
  {
   "property": "C58",
   "status": "proved",
   "theorems": [
    "Btc.Io.C58_script",
    "Btc.Io.C58_slice",
    "Btc.Io.C58_cursor",
    "Btc.Io.C58_take",
    "Btc.Io.C58_take_buffered",
    "Btc.Io.C58_read_exact",
    "Btc.Io.C58_read_to_limit",
    "Btc.Io.C58_decode",
    "Btc.Io.C58_decode_unbuffered",
    "Btc.Io.C58_hash_reader",
    "Btc.Io.C58_hash_script",
    "Btc.Io.C58_write_all",
    "Btc.Io.C58_drain",
    "Btc.Io.C58_slice_writer",
    "Btc.Io.C58_cursor_writer",
    "Btc.Io.C58_take_asks_again"
   ],
   "note": "Readers are any state machine meeting the reader contract (Delivers/Buffers), instantiated by slices, cursors, Take and arbitrary scripts of chunks, interruptions and errors. Take::read at its limit still asks the inner reader (C58_take_asks_again); hash_reader does not retry after Interrupted."
  },
  {
   "property": "C59",
   "status": "proved",
   "theorems": [
    "Btc.ChaCha.C59_block",
    "Btc.ChaCha.C59_apply",
    "Btc.ChaCha.C59_sequence",
    "Btc.ChaCha.C59_sequence_block",
    "Btc.ChaCha.C59_twice",
    "Btc.ChaCha.C59_pieces",
    "Btc.ChaCha.C59_last_block"
   ],
   "note": "Portable (non-SIMD) path. Finding C59_last_block: apply_keystream overflows the block counter when the buffer ends exactly at the end of block 2^32-1 (panic with overflow checks)."
  },
  {
   "property": "C60",
   "status": "proved",
   "theorems": [
    "Btc.Crypto.C60_tap_from_slice",
    "Btc.Crypto.C60_tap_accepts",
    "Btc.Crypto.C60_tap_rejects",
    "Btc.Crypto.C60_tap_round_trip",
    "Btc.Crypto.C60_tap_canonical",
    "Btc.Crypto.C60_tap_text",
    "Btc.Crypto.C60_tap_display",
    "Btc.Crypto.C60_tap_iter",
    "Btc.Crypto.C60_ecdsa_from_slice",
    "Btc.Crypto.C60_ecdsa_round_trip",
    "Btc.Crypto.C60_ecdsa_canonical",
    "Btc.Crypto.C60_ecdsa_rejects",
    "Btc.Crypto.C60_ecdsa_text"
   ],
   "note": ""
  },
  {
   "property": "C61",
   "status": "proved",
   "theorems": [
    "Btc.Bip152.C61_compact",
    "Btc.Bip152.C61_request",
    "Btc.Bip152.C61_block_transactions",
    "Btc.Bip152.C61_encodable",
    "Btc.Bip152.C61_split"
   ],
   "note": "Exact characterisation of what each decoder accepts."
  },
  {
   "property": "C62",
   "status": "proved",
   "theorems": [
    "Btc.Sha2.C62_root",
    "Btc.Sha2.C62_primes",
    "Btc.Sha2.C62_sha256",
    "Btc.Sha2.C62_sha512",
    "Btc.Sha2.C62_sha384",
    "Btc.Sha2.C62_sha512_256",
    "Btc.Sha2.C62_sha256d_64",
    "Btc.Sha2.C62_unoptimized",
    "Btc.Sha2.C62_update_64",
    "Btc.Sha2.C62_update_2x32",
    "Btc.Sha2.C62_midstate"
   ],
   "note": "The unrolled round calls are transcribed as tables; constants are checked against cube and square roots of primes. The SIMD and hardware paths are the subject of C83."
  },
  {
   "property": "C63",
   "status": "partial",
   "theorems": [
    "Btc.Hashes.C63_extract",
    "Btc.Hashes.C63_expand_partial",
    "Btc.Hashes.C63_too_long",
    "Btc.Hashes.C63_last_block_panics"
   ],
   "note": "Proved up to 254 blocks; refuted for the 255th (C63_last_block_panics): the u8 counter overflows although 255 blocks are documented as allowed."
  },
  {
   "property": "C64",
   "status": "proved",
   "theorems": [
    "Btc.Hashes.Sip.C64_siphash"
   ],
   "note": "Unsafe loads modelled as reads of the slice; the low byte of the count is all that matters, so no length bound."
  },
  {
   "property": "C65",
   "status": "proved",
   "theorems": [
    "Btc.Hashes.C65_sha1",
    "Btc.Hashes.Ripemd.C65_ripemd160",
    "Btc.Hashes.Keccak.C65_sha3_256"
   ],
   "note": "Round tables, rotation offsets and round constants are checked against the generating rules of the standards (rho and pi permutations, roots of primes, triangular numbers, LFSR)."
  },
  {
   "property": "C67",
   "status": "proved",
   "theorems": [
    "Btc.Sighash.C67_taproot",
    "Btc.Sighash.C67_segwit",
    "Btc.Sighash.C67_legacy",
    "Btc.Sighash.C67_legacy_empty_code"
   ],
   "note": "Sizes below 2^64 and, for taproot, indices below 2^32. C67_legacy_empty_code shows that a legacy ALL hash with an empty script code does not commit to the index."
  },
  {
   "property": "C68",
   "status": "proved",
   "theorems": [
    "Btc.ChaCha.C68_poly1305"
   ],
   "note": "Limb arithmetic over u32/u64 with every overflow an explicit failure; proved to be the number-theoretic definition of RFC 8439."
  },
  {
   "property": "C69",
   "status": "proved",
   "theorems": [
    "Btc.ChaCha.C69_encrypt",
    "Btc.ChaCha.C69_decrypt",
    "Btc.ChaCha.C69_round_trip",
    "Btc.ChaCha.C69_tamper"
   ],
   "note": "The last theorem is up to a Poly1305 collision under the one-time key, as no unconditional claim is true."
  },
  {
   "property": "C70",
   "status": "proved",
   "theorems": [
    "Btc.Cmp.C70_fixed_time_eq"
   ],
   "note": "Volatile accesses are plain ones; timing is outside the model."
  },
  {
   "property": "C71",
   "status": "proved",
   "theorems": [
    "Btc.Crypto.C71_public",
    "Btc.Crypto.C71_prefix",
    "Btc.Crypto.C71_public_text",
    "Btc.Crypto.C71_full",
    "Btc.Crypto.C71_private",
    "Btc.Crypto.C71_wif_parse",
    "Btc.Crypto.C71_wif_roundtrip",
    "Btc.Crypto.C71_wif_unique"
   ],
   "note": "secp256k1 points abstract (structure Secp with its laws as fields, instance Secp.toy); the checksum hash is any function."
  },
  {
   "property": "C72",
   "status": "proved",
   "theorems": [
    "Btc.Bip32.C72_encode",
    "Btc.Bip32.C72_xpriv_decode",
    "Btc.Bip32.C72_xpub_decode",
    "Btc.Bip32.C72_parse",
    "Btc.Bip32.C72_roundtrip",
    "Btc.Bip32.C72_disjoint",
    "Btc.Bip32.C72_master_with_parent"
   ],
   "note": "Byte layout and string form, both directions; keys of depth 0 with a parent encode but do not decode (C72_master_with_parent)."
  },
  {
   "property": "C73",
   "status": "proved",
   "theorems": [
    "Btc.Bip32.C73_ckd_priv",
    "Btc.Bip32.C73_ckd_pub",
    "Btc.Bip32.C73_commutes",
    "Btc.Bip32.C73_path",
    "Btc.Bip32.C73_commutes_path",
    "Btc.Bip32.C73_depth",
    "Btc.Bip32.C73_master",
    "Btc.Bip32.C73_derived_roundtrip"
   ],
   "note": "HMAC-SHA512, SHA-256 and RIPEMD-160 are the proved engine models; points abstract with the law pub_add; the expects are an explicit panic, reached exactly when the left half is 0 or not below the order, or the sum is 0."
  },
  {
   "property": "C74",
   "status": "partial",
   "theorems": [
    "Btc.Addr.C74_script_pubkey",
    "Btc.Addr.C74_hrp_kind",
    "Btc.Addr.C74_from_script",
    "Btc.Addr.C74_round_trip",
    "Btc.Addr.C74_injective",
    "Btc.Addr.C74_from_script_error",
    "Btc.Addr.C74_address_type",
    "Btc.Addr.C74_constructors",
    "Btc.Addr.C74_matches_partial",
    "Btc.Addr.C74_matches_ignores_version",
    "Btc.Addr.C74_related"
   ],
   "note": "All proved except the last clause: matches_script_pubkey ignores the witness version (refuted by C74_matches_ignores_version; C74_matches_partial gives the exact matching set)."
  },
  {
   "property": "C75",
   "status": "proved",
   "theorems": [
    "Btc.Addr.C75_display",
    "Btc.Addr.C75_display_total",
    "Btc.Addr.C75_parse",
    "Btc.Addr.C75_round_trip",
    "Btc.Addr.C75_qr_uri",
    "Btc.Addr.C75_canonical",
    "Btc.Addr.C75_start",
    "Btc.Addr.C75_require_network",
    "Btc.Addr.C75_no_panic",
    "Btc.Addr.C75_typo",
    "Btc.Addr.C75_network_text",
    "Btc.Addr.C75_type_text"
   ],
   "note": "bech32 is an external crate: modelled after BIP-173/BIP-350. Proved for any double-SHA256 function."
  },
  {
   "property": "C66",
   "status": "proved",
   "theorems": [
    "Btc.Taproot.C66_optimal",
    "Btc.Taproot.C66_beats_builder",
    "Btc.Taproot.C66_few",
    "Btc.Taproot.C66_shallow",
    "Btc.Taproot.C66_saturation"
   ],
   "note": "The bound on the sum is necessary (C66_saturation): with four scripts of weight u32::MAX the result is not optimal."
  },
  {
   "property": "C76",
   "status": "proved",
   "theorems": [
    "Btc.B64.C76_rfc4648",
    "Btc.C76_round_trip",
    "Btc.C76_bytes",
    "Btc.C76_accept",
    "Btc.C76_header",
    "Btc.C76_slice",
    "Btc.C76_base64",
    "Btc.C76_base64_accept",
    "Btc.C76_hash",
    "Btc.C76_commits",
    "Btc.C76_sign_verify",
    "Btc.C76_verify_true",
    "Btc.C76_verify_other"
   ],
   "note": "The secp256k1 recovery functions and the base64 crate are external: the first by laws (RecSecp, with a toy instance), the second modelled after RFC 4648."
  },
  {
   "property": "C77",
   "status": "proved",
   "theorems": [
    "Btc.Genesis.C77_genesis",
    "Btc.Genesis.C77_hash",
    "Btc.Genesis.C77_coinbase",
    "Btc.Genesis.C77_chain_hash",
    "Btc.Genesis.C77_genesis_network",
    "Btc.Genesis.C77_magic",
    "Btc.Genesis.C77_values",
    "Btc.Genesis.C77_params",
    "Btc.Genesis.C77_validate_pow"
   ],
   "note": ""
  },
  {
   "property": "C78",
   "status": "proved",
   "theorems": [
    "Btc.Bip34.C78_height",
    "Btc.Bip34.C78_errors",
    "Btc.Bip34.C78_unique",
    "Btc.Bip34.C78_builder"
   ],
   "note": ""
  },
  {
   "property": "C79",
   "status": "proved",
   "theorems": [
    "Btc.P2p.Flags.C79_ops",
    "Btc.P2p.Flags.C79_xor",
    "Btc.P2p.Flags.C79_xor_missing",
    "Btc.P2p.Flags.C79_numbers",
    "Btc.P2p.Flags.C79_display",
    "Btc.P2p.Flags.C79_display_inj"
   ],
   "note": ""
  },
  {
   "property": "C80",
   "status": "proved",
   "theorems": [
    "Btc.HexInt.C80_prefixed",
    "Btc.HexInt.C80_unprefixed",
    "Btc.HexInt.C80_any",
    "Btc.HexInt.C80_print",
    "Btc.HexInt.C80_u256",
    "Btc.HexInt.C80_u256_digits",
    "Btc.HexInt.C80_u256_plus",
    "Btc.HexInt.C80_u256_print",
    "Btc.HexInt.C80_u256_binary_octal"
   ],
   "note": ""
  },
  {
   "property": "C81",
   "status": "proved",
   "theorems": [
    "Btc.P2tr.C81_spend",
    "Btc.P2tr.C81_accessors",
    "Btc.P2tr.C81_control_block",
    "Btc.P2tr.C81_round_trip",
    "Btc.P2tr.C81_bad_annex",
    "Btc.P2tr.C81_p2wsh",
    "Btc.P2tr.C81_key_spend",
    "Btc.P2tr.C81_push_ecdsa",
    "Btc.P2tr.C81_p2wpkh_confused",
    "Btc.P2tr.C81_large_panics"
   ],
   "note": "The assurance in the documentation of taproot_leaf_script and taproot_control_block is false; C81_p2wpkh_confused is the counterexample family. Everything else holds as stated."
  },
  {
   "property": "C82",
   "status": "proved",
   "theorems": [
    "Btc.U256.C82_nearest",
    "Btc.U256.C82_monotone",
    "Btc.U256.C82_exact",
    "Btc.U256.C82_exact_small"
   ],
   "note": "A double is its bit pattern with the IEEE 754 value, scaled by 2^1074 to a natural number. The division of difficulty_float and log2 are float operations of the platform and are not modelled."
  },
  {
   "property": "C83",
   "status": "proved",
   "theorems": [
    "Btc.Dispatch.C83_process_blocks",
    "Btc.Dispatch.C83_ways",
    "Btc.Dispatch.C83_hash_64_many",
    "Btc.Dispatch.C83_sha256",
    "Btc.Dispatch.C83_merkle_root"
   ],
   "note": "The vector intrinsics are modelled from the Intel and Arm manuals on lanes of 32 bits and byte memory; which features a processor has is a parameter (Cpu), so the claim holds for every answer of feature detection. Alignment and undefined behaviour of raw pointers are outside the model."
  },
  {
   "property": "C84",
   "status": "proved",
   "theorems": [
    "Btc.Scr.C84_names",
    "Btc.Scr.C84_text",
    "Btc.Scr.C84_errors",
    "Btc.Scr.C84_injective"
   ],
   "note": "Texts are byte strings; the tables of names are copied from the source. The claim that two names differ is a complete case analysis over the 256 opcode bytes."
  },
  {
   "property": "C85",
   "status": "proved",
   "theorems": [
    "Btc.C85_rbf",
    "Btc.C85_final",
    "Btc.C85_index",
    "Btc.C85_effective",
    "Btc.C85_effective_antitone",
    "Btc.C85_ground",
    "Btc.C85_constants",
    "Btc.C85_virtual_size",
    "Btc.C85_dust_custom",
    "Btc.C85_dust_default",
    "Btc.C85_dust_refuted",
    "Btc.C85_verify",
    "Btc.C85_verify_default",
    "Btc.C85_verify_error",
    "Btc.C85_verify_distinct"
   ],
   "note": "IsFinalTx and GetDustThreshold of Bitcoin Core are transcribed in Props/C85.lean. The library bitcoinconsensus is a parameter. C85_dust_refuted shows that tiny custom dust rates give an amount below the threshold (finding 53)."
  },
  {
   "property": "C86",
   "status": "proved",
   "theorems": [
    "Btc.Amt.C86_nearest",
    "Btc.Amt.C86_from",
    "Btc.Amt.C86_roundtrip",
    "Btc.Amt.C86_back",
    "Btc.Amt.C86_order",
    "Btc.Amt.C86_minus_zero",
    "Btc.Amt.C86_nearest_signed",
    "Btc.Amt.C86_from_signed",
    "Btc.Amt.C86_roundtrip_signed"
   ],
   "note": "f64::to_string and str::parse::<f64> of the Rust standard library are parameters; assumed of them (ShowLaws, ParseLaws) are correct rounding of decimal texts and shortest texts that round to the double; laws_exist proves that such functions exist. C86_minus_zero records finding 54."
  },
  {
   "property": "C87",
   "status": "partial",
   "theorems": [
    "Btc.Amt.NumOp.C87_exact",
    "Btc.Amt.NumOp.C87_div_by_zero",
    "Btc.Amt.NumOp.C87_overflow_partial",
    "Btc.Amt.NumOp.C87_overflow_refuted",
    "Btc.Amt.NumOp.C87_accessors",
    "Btc.Amt.NumOp.C87_ratio",
    "Btc.Amt.NumOp.C87_unchecked_assign"
   ],
   "note": "Exactness, absence of panics and soundness of is_div_by_zero hold for every expression. Soundness of is_overflow is false of the code for sums and differences of two results and for assignments (C87_overflow_refuted, finding 55); C87_overflow_partial proves it for all other expressions. NumOpResult<Weight> and NumOpResult<FeeRate> have unchecked += and -= (C87_unchecked_assign, finding 56); they are outside the expression type."
  },
  {
   "property": "C88",
   "status": "partial",
   "theorems": [
    "Btc.P2p.C88_new",
    "Btc.P2p.C88_socket_addr",
    "Btc.P2p.C88_v4",
    "Btc.P2p.C88_round_partial",
    "Btc.P2p.C88_loopback_refuted",
    "Btc.P2p.C88_back",
    "Btc.P2p.C88_wire",
    "Btc.P2p.C88_useless",
    "Btc.P2p.C88_v2_ip",
    "Btc.P2p.C88_v2_error",
    "Btc.P2p.C88_v2_socket",
    "Btc.P2p.C88_v2_wire"
   ],
   "note": "The round trip is false of the code in ::/96, which includes the IPv6 loopback (C88_loopback_refuted, finding 57); C88_round_partial and C88_wire prove it for every other socket. Flow information and scope ids of IPv6 sockets are not part of the protocol."
  },
  {
   "property": "C89",
   "status": "partial",
   "theorems": [
    "Btc.P2p.C89_build",
    "Btc.P2p.C89_version",
    "Btc.P2p.C89_fields",
    "Btc.P2p.C89_determined_partial",
    "Btc.P2p.C89_comment_refuted",
    "Btc.P2p.C89_date_refuted",
    "Btc.P2p.C89_nonstandard"
   ],
   "note": "Panics and text are exact (C89_build); the text always determines names, version texts and comment texts (C89_fields). That it determines every comment and date is false of the code: a comment may contain '; ' (C89_comment_refuted) and months and days may have three digits (C89_date_refuted); C89_determined_partial proves it for all other clients. Findings 58 and 59."
  },
  {
   "property": "C90",
   "status": "proved",
   "theorems": [
    "Btc.P2p.C90_connected_iff",
    "Btc.P2p.C90_tip_determines",
    "Btc.P2p.C90_filter_chain",
    "Btc.P2p.C90_filter_header",
    "Btc.P2p.C90_final_alert"
   ],
   "note": "Collision resistance is not assumed: the conclusion is equality or an explicit collision."
  },
  {
   "property": "C91",
   "status": "partial",
   "theorems": [
    "Btc.Serde.C91_hash",
    "Btc.Serde.C91_hash_exact",
    "Btc.Serde.C91_u256",
    "Btc.Serde.C91_integers",
    "Btc.Serde.C91_checked",
    "Btc.Serde.C91_sound",
    "Btc.Serde.C91_script",
    "Btc.Serde.C91_witness",
    "Btc.Serde.C91_outpoint_text",
    "Btc.Serde.C91_outpoint_map_partial",
    "Btc.Serde.C91_outpoint_fixed_partial",
    "Btc.Serde.C91_outpoint_fields",
    "Btc.Serde.C91_outpoint_refuted",
    "Btc.Serde.C91_outpoint_wrong",
    "Btc.Serde.C91_consensus",
    "Btc.Serde.C91_consensus_tx",
    "Btc.Serde.C91_consensus_sound"
   ],
   "note": "All types but OutPoint in binary formats: there the code reads other types than it wrote. C91_outpoint_refuted: every format that answers only what was asked for refuses every out point; C91_outpoint_wrong: a format with variable-length numbers reads another out point. The two C91_outpoint_*_partial theorems say which binary formats work. The crate serde and the data formats are external; a format is any structure Fmt. Finding 60."
  },
  {
   "property": "C92",
   "status": "partial",
   "theorems": [
    "Btc.Serde.C92_amount",
    "Btc.Serde.C92_vec",
    "Btc.Serde.C92_opt_sat",
    "Btc.Serde.C92_opt_partial",
    "Btc.Serde.C92_opt_refuted",
    "Btc.Serde.C92_sound",
    "Btc.Serde.C92_vec_panic",
    "Btc.Serde.C92_vec_panic_only",
    "Btc.Serde.C92_fee",
    "Btc.Serde.C92_fee_exact",
    "Btc.Serde.C92_fee_lists"
   ],
   "note": "Amounts and lists: all formats. Options: all formats for as_sat; as_btc::opt and as_str::opt write Some(a) as a, which only formats with untagged options read back (C92_opt_partial); formats that answer only what was asked for refuse it (C92_opt_refuted). Fee rates: exact result in C92_fee, including that rates above 2.1e15 sat/MvB are written but refused. Reading a list panics on a stored length of 2^60 or more (C92_vec_panic, C92_vec_panic_only). Findings 61, 62, 63. Decimal texts of doubles are parameters as in C86."
  },
  {
   "property": "C93",
   "status": "partial",
   "theorems": [
    "Btc.Serde.C93_leaf",
    "Btc.Serde.C93_branch",
    "Btc.Serde.C93_tree_partial",
    "Btc.Serde.C93_tree_refuted",
    "Btc.Serde.C93_hidden",
    "Btc.Serde.C93_sound",
    "Btc.Serde.C93_narrow",
    "Btc.Serde.C93_xonly_partial",
    "Btc.Serde.C93_xonly_refuted",
    "Btc.Serde.C93_control",
    "Btc.Serde.C93_control_refuted",
    "Btc.Serde.C93_control_sound"
   ],
   "note": "Leaves and branches: all formats. Trees: formats that do not tell integer widths apart (C93_tree_partial); the depth is written as u64 and read as u8, so strict formats refuse every tree (C93_tree_refuted). Hidden nodes are not written (C93_hidden). X-only keys and control blocks lose the parity flag (C93_xonly_partial, C93_xonly_refuted, C93_control, C93_control_refuted). Findings 64, 65. The implementations of the crate secp256k1 are parameters with the round trip as law."
  },
  {
   "property": "C94",
   "status": "proved",
   "theorems": [
    "Btc.Serde.C94_network",
    "Btc.Serde.C94_kind",
    "Btc.Serde.C94_address",
    "Btc.Serde.C94_xkeys",
    "Btc.Serde.C94_paths",
    "Btc.Serde.C94_sighash",
    "Btc.Serde.C94_wif",
    "Btc.Serde.C94_public_keys",
    "Btc.Serde.C94_keypair",
    "Btc.Serde.C94_signatures"
   ],
   "note": "Extended keys: those that keep BIP-32's rule for depth zero; addresses: valid ones. The implementations of the crate secp256k1 are parameters with the round trip as law."
  },
  {
   "property": "C95",
   "status": "proved",
   "theorems": [
    "Btc.Crypto.C95_conversions",
    "Btc.Crypto.C95_x_only",
    "Btc.Crypto.C95_negate",
    "Btc.Crypto.C95_add_tweak",
    "Btc.Crypto.C95_check",
    "Btc.Crypto.C95_tap_tweak",
    "Btc.Crypto.C95_bip341",
    "Btc.Crypto.C95_sign_free",
    "Btc.Crypto.C95_key_spend",
    "Btc.Crypto.C95_key_spend_only",
    "Btc.Crypto.C95_sign_verify"
   ],
   "note": "The curve is a structure whose laws (point addition agrees with addition of secret keys, negation keeps x and flips the parity, signatures made verify) are hypotheses; toyCurve meets them. The converse, that others cannot sign, is not claimed."
  },
  {
   "property": "C96",
   "status": "proved",
   "theorems": [
    "Btc.Wt.C96_checked",
    "Btc.Wt.C96_units",
    "Btc.Wt.C96_from",
    "Btc.Wt.C96_mtp",
    "Btc.Wt.C96_text",
    "Btc.Wt.C96_checked_build",
    "Btc.Wt.C96_builds_agree",
    "Btc.Wt.C96_wrapping_build",
    "Btc.Wt.C96_sum"
   ],
   "note": "The build mode (overflow checks on or off) is a parameter of the model."
  },
  {
   "property": "C97",
   "status": "partial",
   "theorems": [
    "Btc.C97_transaction",
    "Btc.C97_witness_elements",
    "Btc.C97_witness_platform_false",
    "Btc.C97_witness_platform_partial",
    "Btc.Crypto.C97_serialized",
    "Btc.Crypto.C97_serialized_ecdsa",
    "Btc.C97_seed",
    "Btc.Taproot.C97_node_order",
    "Btc.Taproot.C97_node_eq_false",
    "Btc.Taproot.C97_node_eq_partial"
   ],
   "note": "The code refutes two parts: C97_witness_platform_false (the order of witnesses depends on the byte order of the platform; C97_witness_platform_partial: it does not for the same number of elements and the same serialized size) and C97_node_eq_false (a leaf and its hash as a hidden node are equal but compare as different; C97_node_eq_partial: nodes of trees without hidden parts agree, or the hash has a collision). Everything else is proved as stated."
  },
  {
   "property": "C98",
   "status": "proved",
   "theorems": [
    "Btc.SignTx.C98_signed"
   ],
   "note": "Script evaluation is not part of this claim (it is C129): the spending conditions of the six script kinds are written out from BIP-16, 141, 143, 340-342. Signature laws of the curve are hypotheses carried by the `Curve` structure; that DER encodings are not empty is a hypothesis. SINGLE without a matching output is excluded for taproot (the library refuses to hash it) and has the original algorithm's digest 1 for pay to public key hash."
  },
  {
   "property": "C99",
   "status": "proved",
   "theorems": [
    "Btc.Wallet.C99_watch",
    "Btc.Wallet.C99_spend"
   ],
   "note": "Composition of C72, C73, C74, C75 and C98 over a model of examples/bip32.rs. The laws of the curve are hypotheses carried by structures, as in C73 and C95; SINGLE without a matching output is excluded for taproot."
  },
  {
   "property": "C100",
   "status": "proved",
   "theorems": [
    "Btc.C100_inclusion",
    "Btc.C100_chain",
    "Btc.C100_server",
    "Btc.C100_filter",
    "Btc.C100_forged",
    "Btc.C100_forged_id"
   ],
   "note": "Composition of C11, C22, C23, C24, C25 and C90. The condition on 64-byte transactions is part of the statement; C100_forged and C100_forged_id show it cannot be dropped (finding 70)."
  },
  {
   "property": "C101",
   "status": "proved",
   "theorems": [
    "Btc.C101_transactions",
    "Btc.C101_block",
    "Btc.C101_forged"
   ],
   "note": "For decodable transactions whose witnesses fit 32-bit offsets. The condition on 64-byte transactions is part of the statement; C101_forged shows it cannot be dropped (finding 71)."
  },
  {
   "property": "C102",
   "status": "proved",
   "theorems": [
    "Btc.Bip152.C102_relay",
    "Btc.Bip152.C102_accept",
    "Btc.Bip152.C102_ambiguous"
   ],
   "note": "Version 2 (wtxid). The receiver is not in the crate: it is BIP-152's, written in Props/C102.lean as part of the statement over the crate's functions. C102_ambiguous shows that the condition on the pool cannot be dropped. The second part has the conditions of C101 (no 64-byte transactions, witnesses fit)."
  },
  {
   "property": "C103",
   "status": "proved",
   "theorems": [
    "Btc.HexText.C103_format",
    "Btc.HexText.C103_plain",
    "Btc.HexText.C103_width_precision",
    "Btc.HexText.C103_transaction",
    "Btc.HexText.C103_block",
    "Btc.HexText.C103_header",
    "Btc.HexText.C103_alternate",
    "Btc.HexText.C103_script",
    "Btc.HexText.C103_script_mixed"
   ],
   "note": "The hex crate is external and modelled by its digits. Conditions on what is read back are those of the decoders (C10, C17)."
  },
  {
   "property": "C104",
   "status": "proved",
   "theorems": [
    "Btc.SliceM.C104_chunks",
    "Btc.SliceM.C104_chunks_mut",
    "Btc.SliceM.C104_get_array",
    "Btc.SliceM.C104_split",
    "Btc.SliceM.C104_array"
   ],
   "note": "A slice is a window of a list; alignment and aliasing rules are not modelled. Conditions the compiler checks are none in the model."
  },
  {
   "property": "C105",
   "status": "proved",
   "theorems": [
    "Btc.HashText.C105_direction",
    "Btc.HashText.C105_text",
    "Btc.HashText.C105_length",
    "Btc.HashText.C105_number",
    "Btc.HashText.C105_proof_of_work",
    "Btc.HashText.C105_lengths",
    "Btc.HashText.C105_declaration",
    "Btc.HashText.C105_unknown",
    "Btc.HashText.C105_conflict",
    "Btc.HashText.C105_conflict_refuted",
    "Btc.HashText.C105_attribute_order"
   ],
   "note": "Formatter options are handled by the external hex crate and not modelled; errors of FromStr are merged. The documented claim of the macro that conflicting directions are reported is refuted (C105_conflict_refuted)."
  },
  {
   "property": "C106",
   "status": "proved",
   "theorems": [
    "Btc.Io.C106_there_and_back",
    "Btc.Io.C106_back_and_there",
    "Btc.Io.C106_interrupted",
    "Btc.Io.C106_kinds",
    "Btc.Io.C106_unwrap",
    "Btc.Io.C106_delivers",
    "Btc.Io.C106_decode",
    "Btc.Io.C106_write"
   ],
   "note": "The standard library is modelled by its interface; unwind safety and pointer casts of transparent_newtype are not modelled."
  },
  {
   "property": "C107",
   "status": "proved",
   "theorems": [
    "Btc.Taproot.C107_walk",
    "Btc.Taproot.C107_each_once",
    "Btc.Taproot.C107_hidden_refused"
   ],
   "note": "The order is that of the hash-sorted tree, not of the add_leaf calls."
  },
  {
   "property": "C108",
   "status": "proved",
   "theorems": [
    "Btc.SignTx.C108_fee"
   ],
   "note": "The bound of 71 bytes on DER signatures (low S) is a hypothesis on the external library; the program that plans is in Bitcoin/FeePlan.lean."
  },
  {
   "property": "C109",
   "status": "proved",
   "theorems": [
    "Btc.P2p.C109_serves",
    "Btc.P2p.C109_ping_pong",
    "Btc.P2p.C109_handshake",
    "Btc.P2p.C109_completes"
   ],
   "note": "TCP is modelled as two reliable ordered queues of bytes with unbounded buffers; time-outs, connection loss and the operating system are not modelled. A program that has left its loop leaves the bytes that arrive later in the queue. The network magics of the two ends may differ: the decoder reads the magic and compares it with nothing, so the handshake completes all the same; the theorem shows which magic each end received."
  },
  {
   "property": "C110",
   "status": "proved",
   "theorems": [
    "Btc.C110_message_payloads",
    "Btc.C110_v1_network_message",
    "Btc.C110_primitives",
    "Btc.C110_p2p_parts",
    "Btc.C110_canonical",
    "Btc.C110_one_push"
   ],
   "note": "One theorem clause per wire format; newtypes over the same format (BlockHash, TxMerkleNode, FilterHash, TapLeafHash over 32 bytes; BlockHeight, BlockTime, Version, CompactTarget, Sequence, ProtocolVersion over u32; the script types over prefixed bytes) share a clause. The comparison with the released bitcoin 0.32 (compare_consensus_encoding.rs) is outside: that crate is not in the repository."
  },
  {
   "property": "C111",
   "status": "partial",
   "theorems": [
    "Btc.Arb.C111_transaction",
    "Btc.Arb.C111_every_transaction",
    "Btc.Arb.C111_weight",
    "Btc.Arb.C111_block",
    "Btc.Arb.C111_witness",
    "Btc.Arb.C111_command",
    "Btc.Arb.C111_addrv2",
    "Btc.Arb.C111_fee_filter",
    "Btc.Arb.C111_partial_merkle_tree",
    "Btc.Arb.C111_xpriv",
    "Btc.Arb.C111_inventory_partial",
    "Btc.Arb.C111_inventory_named",
    "Btc.Arb.C111_unknown_listed",
    "Btc.Arb.C111_request_partial",
    "Btc.Arb.C111_xpub_partial",
    "Btc.Arb.C111_user_agent_partial",
    "Btc.Arb.C111_user_agent_panics",
    "Btc.Arb.C111_prediction_partial",
    "Btc.Arb.C111_prediction_overflows"
   ],
   "note": "The code itself refutes the claim for six generators: Inventory and NetworkMessage::Unknown with a listed type or command, offsets above MAX_COMPACT_SIZE, Xpub of depth 0 with a parent, UserAgent and InputWeightPrediction with a panic. For these the _partial theorems give the condition under which the claim holds. Drawing (the arbitrary crate) is not modelled: a generator is a function of what is drawn."
  },
  {
   "property": "C112",
   "status": "partial",
   "theorems": [
    "Btc.Fuzz.C112_outpoint",
    "Btc.Fuzz.C112_amount",
    "Btc.Fuzz.C112_int",
    "Btc.Fuzz.C112_script",
    "Btc.Fuzz.C112_addrv2",
    "Btc.Fuzz.C112_address_partial",
    "Btc.Fuzz.C112_address_fails"
   ],
   "note": "The code itself refutes the claim for parse_address: a segwit address in capitals parses and prints in lower case (C112_address_fails); C112_address_partial says exactly when the assertion holds."
  },
  {
   "property": "C113",
   "status": "partial",
   "theorems": [
    "Btc.Examples.C113_p2wpkh",
    "Btc.Examples.C113_p2wpkh_spends",
    "Btc.Examples.C113_sign_then_check",
    "Btc.Examples.C113_p2wsh",
    "Btc.Examples.C113_p2wsh_spends_partial",
    "Btc.Examples.C113_legacy",
    "Btc.Examples.C113_legacy_built",
    "Btc.Examples.C113_script_unprefixed",
    "Btc.Examples.C113_script",
    "Btc.Examples.C113_io_count",
    "Btc.Examples.C113_io_outpoint",
    "Btc.Examples.C113_encoder",
    "Btc.Examples.C113_p2wsh_fails"
   ],
   "note": "The code itself refutes the claim for P2WSH: the program asserts DER lengths of 70 to 72 bytes and panics on shorter valid signatures (C113_p2wsh_fails); C113_p2wsh_spends_partial says exactly when it returns."
  },
  {
   "property": "C114",
   "status": "proved",
   "theorems": [
    "Btc.AfterSigning.C114_stays",
    "Btc.AfterSigning.C114_combine",
    "Btc.AfterSigning.C114_fund",
    "Btc.AfterSigning.C114_none",
    "Btc.AfterSigning.C114_join",
    "Btc.AfterSigning.C114_exact_segwit",
    "Btc.AfterSigning.C114_exact_taproot"
   ],
   "note": "Inputs of the kinds of C98 (P2PKH, P2WPKH, nested P2WPKH, P2WSH multisignature, taproot key and single-leaf script path, no annex). In the original algorithm SINGLE also commits to the index, so C114_join asks the second transaction for segwit signatures."
  },
  {
   "property": "C115",
   "status": "proved",
   "theorems": [
    "Btc.HeaderSync.C115_strict",
    "Btc.HeaderSync.C115_targets",
    "Btc.HeaderSync.C115_ignores",
    "Btc.HeaderSync.C115_validate_pow_fails",
    "Btc.HeaderSync.C115_work",
    "Btc.HeaderSync.C115_tip"
   ],
   "note": "The client loop is ours (Bitcoin/HeaderSync.lean); the functions it calls are the library's. Testnets and regtest are left out: their minimum-difficulty rule is C46's, and next_target_after can panic there (finding of C46). Median time and version rules are not in the library."
  },
  {
   "property": "C116",
   "status": "partial",
   "theorems": [
    "Btc.Amt.Msg.C116_same_parser",
    "Btc.Amt.Msg.C116_explained",
    "Btc.Amt.Msg.C116_out_of_range",
    "Btc.Amt.Msg.C116_messages_partial",
    "Btc.Amt.Msg.C116_range_fails",
    "Btc.Amt.Msg.C116_negative_zero_fails",
    "Btc.Amt.Msg.C116_minus_fails",
    "Btc.Amt.Msg.C116_characters_fails",
    "Btc.Amt.Msg.C116_precision_fails"
   ],
   "note": "Proved: every error value is explained by the text (C116_explained, C116_out_of_range), on a character-level parser shown equal to the byte-level one of C41 (C116_same_parser), and every message is true outside four named cases (C116_messages_partial). The code refutes the messages in those four: out-of-range bounds and -0, one minus sign, bytes called characters, satoshi amounts (the _fails theorems)."
  },
  {
   "property": "C117",
   "status": "partial",
   "theorems": [
    "Btc.LockErr.C117_parse",
    "Btc.LockErr.C117_hex",
    "Btc.LockErr.C117_roundtrip",
    "Btc.LockErr.C117_messages_partial",
    "Btc.LockErr.C117_relative_height_fails",
    "Btc.LockErr.C117_relative_time_fails",
    "Btc.LockErr.C117_prior_block_fails",
    "Btc.LockErr.C117_same"
   ],
   "note": "Proved: exact parsing, round trip, and truth of every message but two (C117_messages_partial). The code refutes the full claim: the messages for a relative lock of the wrong unit are swapped (C117_relative_height_fails, C117_relative_time_fails). C117_prior_block_fails shows that a documented input is refused."
  },
  {
   "property": "C118",
   "status": "partial",
   "theorems": [
    "Btc.C118_compact_size",
    "Btc.C118_bytes",
    "Btc.C118_input",
    "Btc.C118_output",
    "Btc.C118_witness",
    "Btc.C118_transaction",
    "Btc.C118_header",
    "Btc.C118_block",
    "Btc.C118_final",
    "Btc.C118_missing_partial",
    "Btc.C118_missing_fails",
    "Btc.C118_size_messages_partial",
    "Btc.C118_size_fails",
    "Btc.C118_witness_missing_fails",
    "Btc.C118_transaction_messages_partial",
    "Btc.C118_sum_fails"
   ],
   "note": "Proved: the exact error of every decoder (C118_compact_size \u2026 C118_block), its permanence (C118_final), lower bounds on missing bytes and the truth of the compact size messages away from a cut size. The code refutes the full claim for the numbers: C118_size_fails, C118_missing_fails, C118_witness_missing_fails, C118_sum_fails."
  },
  {
   "property": "C119",
   "status": "partial",
   "theorems": [
    "Btc.B58.C119_array_errors",
    "Btc.B58.C119_messages_partial",
    "Btc.B58.C119_decode_messages",
    "Btc.B58.C119_too_long",
    "Btc.B58.C119_length_fails",
    "Btc.B58.C119_never",
    "Btc.B58.C119_estimate_fails",
    "Btc.Addr.C119_address_partial",
    "Btc.Addr.C119_characters_fails",
    "Btc.Addr.C119_hrp_fails",
    "Btc.Addr.C119_program"
   ],
   "note": "Proved: the exact errors (C119_array_errors, C119_too_long), truth of the messages of decode_check and of witness programs without limit, of arrays for texts up to 128 characters, and of addresses with two exceptions. The code refutes the full claim: C119_length_fails, C119_estimate_fails, C119_characters_fails, C119_hrp_fails; C119_never shows that large arrays are never filled."
  },
  {
   "property": "C120",
   "status": "partial",
   "theorems": [
    "Btc.KeyErr.C120_public_key",
    "Btc.KeyErr.C120_public_key_messages",
    "Btc.KeyErr.C120_text_messages_partial",
    "Btc.KeyErr.C120_digits_fails",
    "Btc.KeyErr.C120_wif",
    "Btc.KeyErr.C120_wif_messages",
    "Btc.KeyErr.C120_xpriv",
    "Btc.KeyErr.C120_xpub",
    "Btc.KeyErr.C120_xkey_text",
    "Btc.KeyErr.C120_xkey_messages",
    "Btc.KeyErr.C120_xkey_text_messages",
    "Btc.KeyErr.C120_number",
    "Btc.KeyErr.C120_child",
    "Btc.KeyErr.C120_path",
    "Btc.KeyErr.C120_path_messages",
    "Btc.KeyErr.C120_seed",
    "Btc.KeyErr.C120_seed_message",
    "Btc.KeyErr.C120_derive",
    "Btc.KeyErr.C120_derive_messages"
   ],
   "note": "Proved: the exact errors of public keys, WIF texts, extended keys, numbers, child numbers, paths and seeds, and truth of all messages, with one exception: the message about the length of the text of a public key counts bytes as digits (C120_digits_fails), so C120_text_messages_partial is for ASCII texts. The text of hex errors of public keys is not modelled."
  },
  {
   "property": "C121",
   "status": "partial",
   "theorems": [
    "Btc.SigErr.C121_builder",
    "Btc.SigErr.C121_builder_messages_partial",
    "Btc.SigErr.C121_depth_fails",
    "Btc.SigErr.C121_unfinished",
    "Btc.SigErr.C121_hidden",
    "Btc.SigErr.C121_empty_fails",
    "Btc.SigErr.C121_huffman",
    "Btc.SigErr.C121_control_block",
    "Btc.SigErr.C121_control_messages_partial",
    "Btc.SigErr.C121_version_fails",
    "Btc.SigErr.C121_leaf_version_partial",
    "Btc.SigErr.C121_block_depth_fails",
    "Btc.SigErr.C121_branch",
    "Btc.SigErr.C121_tap_signature",
    "Btc.SigErr.C121_tap_text",
    "Btc.SigErr.C121_tap_messages",
    "Btc.SigErr.C121_tap_bytes_messages",
    "Btc.SigErr.C121_ecdsa_text",
    "Btc.SigErr.C121_tap_hash_messages",
    "Btc.SigErr.C121_segwit",
    "Btc.SigErr.C121_annex",
    "Btc.SigErr.C121_message_base64",
    "Btc.SigErr.C121_message_messages",
    "Btc.SigErr.C121_message_address"
   ],
   "note": "Proved: the exact errors and the truth of all messages except three, which are refuted: the depth messages say \"less than 128\" although 128 is allowed (C121_depth_fails, C121_block_depth_fails), control blocks with leaf version 0x50 are said to have an odd version (C121_version_fails), and the error about finalizing an empty tree is returned for an empty list of scripts only (C121_empty_fails). C121_builder_messages_partial, C121_control_messages_partial and C121_leaf_version_partial exclude exactly these."
  },
  {
   "property": "C122",
   "status": "partial",
   "theorems": [
    "Btc.Pmt.C122_proof",
    "Btc.Pmt.C122_proof_messages_partial",
    "Btc.Pmt.C122_identical_fails",
    "Btc.Pmt.C122_merkle_block",
    "Btc.Pmt.C122_merkle_block_messages_partial",
    "Btc.C122_validate",
    "Btc.C122_validate_messages_partial",
    "Btc.C122_commitment_fails",
    "Btc.Bip34.C122_height_messages_partial",
    "Btc.Bip34.C122_height_fails",
    "Btc.Genesis.C122_pow",
    "Btc.Bip152.C122_request_partial",
    "Btc.Bip152.C122_request_fails"
   ],
   "note": "Proved: the exact errors of every check and the truth of all messages except four, which are refuted: \"found identical transaction hashes\" for inner nodes (C122_identical_fails), a missing witness commitment said not to match (C122_commitment_fails), a height pushed in five or more bytes said not to be present (C122_height_fails), and an overflowing request reported with an index that was not requested and is in the block (C122_request_fails). The _partial theorems exclude exactly these."
  },
  {
   "property": "C123",
   "status": "proved",
   "theorems": [
    "Btc.Kani.C123_amount",
    "Btc.Kani.C123_signed_amount",
    "Btc.Kani.C123_array",
    "Btc.Kani.C123_array_harnesses",
    "Btc.Kani.C123_mul_u64"
   ],
   "note": "All five harnesses; the two for array vectors also for every capacity and number of elements."
  },
  {
   "property": "C124",
   "status": "partial",
   "theorems": [
    "Btc.ScrErrs.C124_next",
    "Btc.ScrErrs.C124_script_messages",
    "Btc.ScrErrs.C124_push_int",
    "Btc.ScrErrs.C124_number_messages_partial",
    "Btc.ScrErrs.C124_number_range_fails",
    "Btc.ScrErrs.C124_out_point",
    "Btc.ScrErrs.C124_out_point_messages_partial",
    "Btc.ScrErrs.C124_out_point_fails",
    "Btc.ScrErrs.C124_u256_messages_partial",
    "Btc.ScrErrs.C124_u256_range_fails",
    "Btc.ScrErrs.C124_version",
    "Btc.ScrErrs.C124_version_opcode_fails",
    "Btc.ScrErrs.C124_sizes",
    "Btc.ScrErrs.C124_buffer_step",
    "Btc.ScrErrs.C124_buffer",
    "Btc.ScrErrs.C124_push_bytes",
    "Btc.ScrErrs.C124_index",
    "Btc.ScrErrs.C124_midstate",
    "Btc.ScrErrs.C124_hkdf"
   ],
   "note": "Proved: the exact errors, the invariant of push buffers and the truth of all messages except four, which are refuted: a padded script number in range said to be out of range (C124_number_range_fails), any long text of an out point said to have too many digits in its vout (C124_out_point_fails), a text that is no number said to exceed 256 bits (C124_u256_range_fails), and an opcode reported as a witness version (C124_version_opcode_fails). The _partial theorems exclude exactly these."
  },
  {
   "property": "C125",
   "status": "partial",
   "theorems": [
    "Btc.P2p.Errs.C125_command",
    "Btc.P2p.Errs.C125_command_messages_partial",
    "Btc.P2p.Errs.C125_command_length_fails",
    "Btc.P2p.Errs.C125_command_decoder",
    "Btc.P2p.Errs.C125_command_decoder_messages_partial",
    "Btc.P2p.Errs.C125_command_ascii_fails",
    "Btc.P2p.Errs.C125_v1_messages",
    "Btc.P2p.Errs.C125_v1_payload",
    "Btc.P2p.Errs.C125_v1_too_large",
    "Btc.P2p.Errs.C125_short_id",
    "Btc.P2p.Errs.C125_addr",
    "Btc.P2p.Errs.C125_addr_messages_partial",
    "Btc.P2p.Errs.C125_addr_length_fails",
    "Btc.P2p.Errs.C125_ip_messages",
    "Btc.P2p.Errs.C125_onion_message",
    "Btc.P2p.Errs.C125_flags",
    "Btc.P2p.Errs.C125_fee_filter",
    "Btc.P2p.Errs.C125_feature_id",
    "Btc.P2p.Errs.C125_feature_data",
    "Btc.P2p.Errs.C125_sendcmpct_text_fails",
    "Btc.P2p.Errs.C125_network",
    "Btc.P2p.Errs.C125_magic_text",
    "Btc.P2p.Errs.C125_unknown",
    "Btc.P2p.Errs.C125_hex_text"
   ],
   "note": "Proved: the exact errors and the truth of all messages except those refuted here: a short command said to be longer than twelve (C125_command_length_fails), ASCII bytes said not to be ASCII (C125_command_ascii_fails), an address said to need 512 bytes (C125_addr_length_fails), and an error without any text when built without std (C125_sendcmpct_text_fails). The _partial theorems exclude exactly these."
  },
  {
   "property": "C126",
   "status": "partial",
   "theorems": [
    "Btc.TextErrs.C126_unsigned",
    "Btc.TextErrs.C126_signed",
    "Btc.TextErrs.C126_hex",
    "Btc.TextErrs.C126_u256_partial",
    "Btc.TextErrs.C126_u256_text_fails",
    "Btc.TextErrs.C126_denomination",
    "Btc.TextErrs.C126_denomination_accepted",
    "Btc.TextErrs.C126_confusing_text_fails",
    "Btc.TextErrs.C126_missing_denomination",
    "Btc.TextErrs.C126_interval",
    "Btc.TextErrs.C126_network",
    "Btc.TextErrs.C126_from_script",
    "Btc.TextErrs.C126_address_type",
    "Btc.TextErrs.C126_alternate_text",
    "Btc.TextErrs.C126_absolute_text",
    "Btc.TextErrs.C126_relative_text_fails"
   ],
   "note": "Proved: the exact errors and texts, except those refuted here: for a 256-bit number the message quotes only a part of the text and speaks of 128 bits (C126_u256_text_fails; C126_u256_partial says what is true of the quoted part), the reason given for confusing denominations (C126_confusing_text_fails), and the plain text of relative lock times (C126_relative_text_fails). The search for an alphabetic character is a parameter."
  },
  {
   "property": "C127",
   "status": "partial",
   "theorems": [
    "Btc.Dbg.C127_seed",
    "Btc.Dbg.C127_hkdf",
    "Btc.Dbg.C127_xpriv",
    "Btc.Dbg.C127_xpriv_std",
    "Btc.Dbg.C127_hmac_fails",
    "Btc.Dbg.C127_siphash_fails",
    "Btc.Dbg.C127_public",
    "Btc.Dbg.C127_address",
    "Btc.Dbg.C127_net_address_fails",
    "Btc.Dbg.C127_net_address_partial"
   ],
   "note": "Proved for seeds, HKDF, extended private keys and the public values; refuted for HMAC and SipHash engines, whose derived Debug shows what is needed to compute codes (C127_hmac_fails) or the key itself (C127_siphash_fails), and for network addresses that begin with 96 zero bits (C127_net_address_fails). The texts of the curve library and of the standard library's IP addresses are parameters."
  },
  {
   "property": "C128",
   "status": "partial",
   "theorems": [
    "Btc.Scr.Core.C128_no_panic",
    "Btc.Scr.Core.C128_illegal",
    "Btc.Scr.Core.C128_invalid_fails",
    "Btc.Scr.Core.C128_return",
    "Btc.Scr.Core.C128_noop_partial",
    "Btc.Scr.Core.C128_noop_fails",
    "Btc.Scr.Core.C128_success",
    "Btc.Scr.Core.C128_push_bytes",
    "Btc.Scr.Core.C128_push_num",
    "Btc.Scr.Core.C128_ordinary",
    "Btc.Scr.Core.C128_implemented",
    "Btc.Scr.Core.C128_unspendable"
   ],
   "note": "Proved against rules of evaluation written after Bitcoin Core and BIP-342, with the stack and the ordinary opcodes as parameters. Refuted for 0xff, which is of class IllegalOp but fails only if executed (C128_invalid_fails; C128_return says what it does), and for OP_CLTV and OP_CSV, which are of class NoOp but can fail a script (C128_noop_fails; C128_noop_partial is about the others)."
  },
  {
   "property": "C129",
   "status": "proved",
   "theorems": [
    "Btc.Scr.Core.C129_p2pkh",
    "Btc.Scr.Core.C129_p2pk",
    "Btc.Scr.Core.C129_p2sh",
    "Btc.Scr.Core.C129_op_return",
    "Btc.Scr.Core.C129_multisig",
    "Btc.Scr.Core.C129_program",
    "Btc.Scr.Core.C129_spends",
    "Btc.Scr.Core.C129_zero_program",
    "Btc.Scr.Core.C129_p2wpkh",
    "Btc.Scr.Core.C129_p2tr_key",
    "Btc.Scr.Core.C129_signed"
   ],
   "note": "The rules (EvalScript, VerifyScript, VerifyWitnessProgram, with OP_DUP, OP_HASH160, OP_EQUAL, OP_EQUALVERIFY, OP_CHECKSIG and OP_CHECKMULTISIG) are written in the property file after Bitcoin Core and the BIPs; the other opcodes are parameters. Signature checks are those of C98. Not covered: witnesses with an annex, removal of the signature and of OP_CODESEPARATOR from the script code, key counting in the limit of operations, and the signature operation budget of BIP-342; none of them concerns the scripts of the theorems. C129_multisig assumes at most 982 elements on the stack. A witness program that is zero as a number is unspendable (C129_zero_program), hence the exception."
  },
  {
   "property": "C130",
   "status": "proved",
   "theorems": [
    "Btc.Scr.Core.C130_instructions",
    "Btc.Scr.Core.C130_push_slice",
    "Btc.Scr.Core.C130_push_int",
    "Btc.Scr.Core.C130_push_u32",
    "Btc.Scr.Core.C130_push_verify",
    "Btc.Scr.Core.C130_push_verify_limit"
   ],
   "note": "The evaluator is that of C128 and C129 (what opcodes do to the stack is a parameter). C130_push_verify holds for every machine on whose stacks the VERIFY forms do what the opcode and OP_VERIFY do (`Lawful`); the machine of C129 is shown to be one (`lawful_std`). C130_push_verify_limit: the exception about the limit of operations is real. C130_push_slice and the comparison in C130_push_verify concern scripts to which opcodes are appended after a complete opcode; after a cut off push the appended bytes become data."
  },
  {
   "property": "C131",
   "status": "partial",
   "theorems": [
    "Btc.Scr.Core.C131_push_only",
    "Btc.Scr.Core.C131_push_only_effect",
    "Btc.Scr.Core.C131_redeem_script_partial",
    "Btc.Scr.Core.C131_redeem_script_fails",
    "Btc.Scr.Core.C131_witness_version",
    "Btc.Scr.Core.C131_templates",
    "Btc.Scr.Core.C131_multisig"
   ],
   "note": "The code refutes the full claim: redeem_script is documented to follow BIP-16, but is None for a push-only script signature in which a number is pushed by OP_1NEGATE or OP_1 to OP_16, also where spending with it is valid (C131_redeem_script_fails). C131_redeem_script_partial: what it returns is the script BIP-16 evaluates, and it returns it exactly if there is no such opcode. C131_multisig assumes at most 982 elements on the stack."
  },
  {
   "property": "C132",
   "status": "proved",
   "theorems": [
    "Btc.Scr.Core.C132_checks",
    "Btc.Scr.Core.C132_p2sh",
    "Btc.Scr.Core.C132_witness"
   ],
   "note": "The evaluator is that of C128 and C129, for scripts before tapscript; signature checks are those of OP_CHECKSIG, OP_CHECKSIGVERIFY and of the loop of OP_CHECKMULTISIG and OP_CHECKMULTISIGVERIFY, which stops when the signatures are used up (Bitcoin Core stops earlier, when too few keys are left)."
  },
  {
   "property": "C133",
   "status": "proved",
   "theorems": [
    "Btc.Scr.Core.C133_cltv",
    "Btc.Scr.Core.C133_cltv_range",
    "Btc.Scr.Core.C133_csv",
    "Btc.Scr.Core.C133_cltv_script",
    "Btc.Scr.Core.C133_csv_script",
    "Btc.Scr.Core.C133_cltv_spendable",
    "Btc.Scr.Core.C133_csv_spendable"
   ],
   "note": "The evaluator is that of C128 and C129 with BIP-65 and BIP-112 written out here; OP_DROP removes the top of the stack (a hypothesis on the open opcodes). The script theorems leave two of the 201 operations of legacy scripts to the prefix and assume that the rest has no OP_SUCCESS in tapscript (which would decide alone). Flags that only change policy (minimal pushes) are not modelled."
  },
  {
   "property": "C134",
   "status": "proved",
   "theorems": [
    "Btc.Scr.Core.C134_p2wsh",
    "Btc.Scr.Core.C134_p2sh_p2wsh",
    "Btc.Scr.Core.C134_p2sh_p2wpkh",
    "Btc.Scr.Core.C134_later_versions",
    "Btc.Scr.Core.C134_p2a",
    "Btc.Scr.Core.C134_script_path"
   ],
   "note": "Verification is `verify` of C129 (VerifyScript with BIP-16, BIP-141, BIP-341, BIP-342; opcodes outside the library's scripts are a parameter; the weight budget for signature checks of BIP-342 is not modelled). The restriction to programs that do not read as false is necessary (C129_zero_program)."
  },
  {
   "property": "C135",
   "status": "proved",
   "theorems": [
    "Btc.Scr.Core.C135_script_sig",
    "Btc.Scr.Core.C135_p2pkh",
    "Btc.Scr.Core.C135_p2pk",
    "Btc.Scr.Core.C135_multisig",
    "Btc.Scr.Core.C135_p2sh",
    "Btc.Scr.Core.C135_op_return"
   ],
   "note": "Verification is `verify` of C129. Stated for up to 998 elements (P2PKH), 999 (P2PK, P2SH) and 982 (multisig), so that the limit of a thousand stack elements is not met while the output script runs. Redeem scripts that are witness programs are those of C134."
  },
  {
   "property": "C136",
   "status": "proved",
   "theorems": [
    "Btc.Scr.Core.C136_p2wsh",
    "Btc.Scr.Core.C136_p2shwsh",
    "Btc.Scr.Core.C136_p2wpkh",
    "Btc.Scr.Core.C136_p2shwpkh",
    "Btc.Scr.Core.C136_p2pkh",
    "Btc.Scr.Core.C136_p2sh",
    "Btc.Scr.Core.C136_p2a",
    "Btc.Scr.Core.C136_p2tr"
   ],
   "note": "Verification is `verify` of C129. The hypotheses that the text exists and parses are met by every address the library makes (C75_round_trip); the theorems then hold for whatever the parser returns. For P2PKH and P2SH the script signature is one that push_slice builds, with the bounds of C135; for the addresses of P2SH with a nested witness program it is the one the library builds. For the taproot address the two kinds of witness are stated separately: one element (the key path), and elements followed by a script of the tree and its control block (the script path, where a leaf version other than TapScript succeeds without running the script, as in BIP-341); witnesses with an annex or with a script outside the tree are those of C129 and C98."
  }
 ]
}