{
 "claims": [
  {
   "property": "C01",
   "status": "proved",
   "theorems": [
    "Keride.Props.C01_u32",
    "Keride.Props.C01_u64",
    "Keride.Props.C01_injective",
    "Keride.Props.C01_surjective",
    "Keride.Props.C01_rejects"
   ],
   "note": "All lengths and all u32/u64 values; the f32 logarithm guard of u32_to_b64 is idealised as the exact comparison (DESIGN.md)."
  },
  {
   "property": "C02",
   "status": "proved",
   "theorems": [
    "Keride.Props.C02_code_roundtrip",
    "Keride.Props.C02_short"
   ],
   "note": "All Base64 codes of 1 to 8 characters, any trailing bytes."
  },
  {
   "property": "C03",
   "status": "proved",
   "theorems": [
    "Keride.Props.C03_qb64_roundtrip"
   ],
   "note": "All table codes, all raw, both build profiles."
  },
  {
   "property": "C04",
   "status": "proved",
   "theorems": [
    "Keride.Props.C04_qb2_roundtrip"
   ],
   "note": "All table codes, all raw."
  },
  {
   "property": "C05",
   "status": "proved",
   "theorems": [
    "Keride.Props.C05_text_binary_agree",
    "Keride.Props.C05_composable"
   ],
   "note": "Single primitives and concatenated streams."
  },
  {
   "property": "C06",
   "status": "proved",
   "theorems": [
    "Keride.Props.C06_full_size"
   ],
   "note": ""
  },
  {
   "property": "C07",
   "status": "proved",
   "theorems": [
    "Keride.Props.C07_self_framing"
   ],
   "note": "Any trailing text or bytes."
  },
  {
   "property": "C08",
   "status": "proved",
   "theorems": [
    "Keride.Props.C08_prefix_free"
   ],
   "note": "Injectivity is the case of equal encodings."
  },
  {
   "property": "C09",
   "status": "partial",
   "theorems": [
    "Keride.Props.C09_binary_canonical",
    "Keride.Props.C09_text_canonical_partial",
    "Keride.Props.C09_base64",
    "Keride.Props.C09_text_false"
   ],
   "note": "Base64 itself is one text per value (C09_base64). Binary domain proved in full. False in the text domain (C09_text_false: '=' accepted inside the material); the partial theorem covers material without '='."
  },
  {
   "property": "C10",
   "status": "proved",
   "theorems": [
    "Keride.Props.C10_truncation"
   ],
   "note": "Every proper prefix, text, text bytes and binary."
  },
  {
   "property": "C11",
   "status": "partial",
   "theorems": [
    "Keride.Props.C11_false",
    "Keride.Props.C11_binary_partial",
    "Keride.Props.C11_text_partial",
    "Keride.Props.C11_ascii_partial",
    "Keride.Props.C11_text_bytes_partial"
   ],
   "note": "False of the code (C11_false). C11_binary_partial and C11_text_partial say exactly which byte strings and which texts (of any characters) panic; every other input gives Ok or Err."
  },
  {
   "property": "C12",
   "status": "proved",
   "theorems": [
    "Keride.Props.C12_priority"
   ],
   "note": ""
  },
  {
   "property": "C13",
   "status": "partial",
   "theorems": [
    "Keride.Props.C13_variable_partial",
    "Keride.Props.C13_false"
   ],
   "note": "Proved for raw below 4 GiB; false at 4 GiB and above (C13_false)."
  },
  {
   "property": "C14",
   "status": "proved",
   "theorems": [
    "Keride.Props.C14_fixed"
   ],
   "note": ""
  },
  {
   "property": "C15",
   "status": "partial",
   "theorems": [
    "Keride.Props.C15_digestive",
    "Keride.Props.C15_transferable_false",
    "Keride.Props.C15_transferable_partial"
   ],
   "note": "digestive proved; transferable is false for 1AAI (C15_transferable_false), proved for all other codes."
  },
  {
   "property": "C16",
   "status": "partial",
   "theorems": [
    "Keride.Props.C16_roundtrip_partial",
    "Keride.Props.C16_false"
   ],
   "note": "False for codes A, C, E with an ondex other than the index (C16_false); proved for every other request and both build modes."
  },
  {
   "property": "C17",
   "status": "partial",
   "theorems": [
    "Keride.Props.C17_roundtrip_partial",
    "Keride.Props.C17_debug_false"
   ],
   "note": "Proved for release builds and all codes; in debug builds for all but 3A/3B, whose qb2() always panics (C17_debug_false). The parse-back half has the ondex proviso of C16."
  },
  {
   "property": "C18",
   "status": "partial",
   "theorems": [
    "Keride.Props.C18_bounds_partial",
    "Keride.Props.C18_false",
    "Keride.Props.C18_constructor"
   ],
   "note": "Exact acceptance condition proved; the claim is false for A, C, E, which accept any ondex (C18_false)."
  },
  {
   "property": "C19",
   "status": "proved",
   "theorems": [
    "Keride.Props.C19_framing"
   ],
   "note": "Text, text bytes and binary, both build modes."
  },
  {
   "property": "C20",
   "status": "proved",
   "theorems": [
    "Keride.Props.C20_roundtrip"
   ],
   "note": ""
  },
  {
   "property": "C21",
   "status": "partial",
   "theorems": [
    "Keride.Props.C21_range",
    "Keride.Props.C21_count_b64_partial",
    "Keride.Props.C21_count_b64_false",
    "Keride.Props.C21_constructor"
   ],
   "note": "Construction range proved in full. The count_b64 route wraps above 32 bits (C21_count_b64_false); proved for texts whose value fits 32 bits."
  },
  {
   "property": "C22",
   "status": "proved",
   "theorems": [
    "Keride.Props.C22_semver",
    "Keride.Props.C22_injective",
    "Keride.Props.C22_text",
    "Keride.Props.C22_text_reject"
   ],
   "note": ""
  },
  {
   "property": "C23",
   "status": "proved",
   "theorems": [
    "Keride.Props.C23_lossless",
    "Keride.Props.C23_hex",
    "Keride.Props.C23_hex_reject"
   ],
   "note": "All u128 values, all four codes; hexadecimal text in and out."
  },
  {
   "property": "C24",
   "status": "partial",
   "theorems": [
    "Keride.Props.C24_false",
    "Keride.Props.C24_no_panic_partial"
   ],
   "note": "False for text padded with '=' (C24_false); proved for every constructor call whose text holds no '='."
  },
  {
   "property": "C25",
   "status": "proved",
   "theorems": [
    "Keride.Props.C25_lossless",
    "Keride.Props.C25_order"
   ],
   "note": ""
  },
  {
   "property": "C26",
   "status": "proved",
   "theorems": [
    "Keride.Props.C26_roundtrip",
    "Keride.Props.C26_injective",
    "Keride.Props.C26_length"
   ],
   "note": "All texts of 32 characters over the date-time alphabet; C26_length says what happens at other lengths."
  },
  {
   "property": "C27",
   "status": "partial",
   "theorems": [
    "Keride.Props.C27_false",
    "Keride.Props.C27_roundtrip_partial",
    "Keride.Props.C27_reject"
   ],
   "note": "False for texts whose length is a multiple of four and start with A (C27_false, for every such text); proved for all others up to the size limit."
  },
  {
   "property": "C28",
   "status": "partial",
   "theorems": [
    "Keride.Props.C28_count",
    "Keride.Props.C28_distinct_partial",
    "Keride.Props.C28_zero",
    "Keride.Props.C28_number",
    "Keride.Props.C28_false"
   ],
   "note": "False for lists with repeated indices (C28_false: [0,0] satisfies 2); C28_count gives the exact behaviour for every list, C28_distinct_partial the property for lists without repetitions."
  },
  {
   "property": "C29",
   "status": "partial",
   "theorems": [
    "Keride.Props.C29_weights",
    "Keride.Props.C29_input",
    "Keride.Props.C29_sound",
    "Keride.Props.C29_checked",
    "Keride.Props.C29_exact_partial",
    "Keride.Props.C29_set",
    "Keride.Props.C29_false"
   ],
   "note": "False when 32-bit sums overflow (C29_false). C29_sound (never a false yes, all weights, both build modes), C29_checked and C29_set are unconditional up to 2^32 weights; exactness is proved for weights with a common denominator small enough not to overflow."
  },
  {
   "property": "C30",
   "status": "partial",
   "theorems": [
    "Keride.Props.C30_weighted_partial",
    "Keride.Props.C30_checked",
    "Keride.Props.C30_numeric_partial",
    "Keride.Props.C30_false"
   ],
   "note": "False when 32-bit sums overflow, and for numeric thresholds with repeated indices (C30_false)."
  },
  {
   "property": "C31",
   "status": "partial",
   "theorems": [
    "Keride.Props.C31_nobody_partial",
    "Keride.Props.C31_nonempty",
    "Keride.Props.C31_everybody",
    "Keride.Props.C31_false"
   ],
   "note": "False for the empty list of clauses given to new_with_thold (C31_false); everything else proved, up to 2^32 weights."
  },
  {
   "property": "C32",
   "status": "partial",
   "theorems": [
    "Keride.Props.C32_roundtrip_partial",
    "Keride.Props.C32_sith",
    "Keride.Props.C32_false"
   ],
   "note": "False for the empty list of clauses (C32_false); proved for every other threshold, for limen below 2^27 weights."
  },
  {
   "property": "C33",
   "status": "partial",
   "theorems": [
    "Keride.Props.C33_limen_partial",
    "Keride.Props.C33_values_partial",
    "Keride.Props.C33_false",
    "Keride.Props.C33_satisfy_partial",
    "Keride.Props.C33_construct_partial",
    "Keride.Props.C33_accessors"
   ],
   "note": "False: 0/0 weights, out of range indices, short limen and debug overflow panic (C33_false). In release builds these are all: C33_values_partial and C33_limen_partial say on which values, texts and bytes the three constructors can panic, C33_satisfy_partial exactly on which indices satisfy does; the accessors never do (C33_accessors). In debug builds: weights with a small common denominator."
  },
  {
   "property": "C34",
   "status": "proved",
   "theorems": [
    "Keride.Props.C34_text",
    "Keride.Props.C34_roundtrip",
    "Keride.Props.C34_accepts",
    "Keride.Props.C34_no_panic",
    "Keride.Props.C34_overflow",
    "Keride.Props.C34_default"
   ],
   "note": "All protocols, versions, sizes and all strings; what does not fit is written but never accepted back (C34_overflow)."
  },
  {
   "property": "C35",
   "status": "partial",
   "theorems": [
    "Keride.Props.C35_fields_partial",
    "Keride.Props.C35_partial",
    "Keride.Props.C35_false",
    "Keride.Props.C35_idempotent",
    "Keride.Props.C35_no_panic",
    "Keride.Props.C35_accepts"
   ],
   "note": "Fields, keys and order unchanged and the size right for every document below 4 GiB. The bytes are the JSON of the returned document when the version field comes first or no other text looks like a version string; false otherwise, and sizes wrap at 4 GiB (C35_false)."
  },
  {
   "property": "C36",
   "status": "partial",
   "theorems": [
    "Keride.Props.C36_partial",
    "Keride.Props.C36_exact",
    "Keride.Props.C36_false"
   ],
   "note": "False for continuations that are not UTF-8 and for messages of fewer than 29 bytes (C36_false); C36_exact gives the exact condition, C36_partial the property under it."
  },
  {
   "property": "C37",
   "status": "proved",
   "theorems": [
    "Keride.Props.C37_verifies",
    "Keride.Props.C37_fields",
    "Keride.Props.C37_accepts",
    "Keride.Props.C37_new"
   ],
   "note": "Any hash functions; acceptance needs only that digests have their table length."
  },
  {
   "property": "C38",
   "status": "proved",
   "theorems": [
    "Keride.Props.C38_tamper",
    "Keride.Props.C38_prefixed",
    "Keride.Props.C38_ignore",
    "Keride.Props.C38_exact"
   ],
   "note": "Documents without floats; the colliding texts, if any, are the digested forms of the two documents. The prefixed check is stated by C38_prefixed; without it the label's own text is not compared (exTamper)."
  },
  {
   "property": "C39",
   "status": "partial",
   "theorems": [
    "Keride.Props.C39_false",
    "Keride.Props.C39_partial",
    "Keride.Props.C39_creder_partial",
    "Keride.Props.C39_checked"
   ],
   "note": "False: the constructors never compute the digest (C39_false, for every hash function). C39_partial says what they check; C39_checked gives tamper evidence once the caller adds Saider::verify."
  },
  {
   "property": "C40",
   "status": "partial",
   "theorems": [
    "Keride.Props.C40_partial",
    "Keride.Props.C40_exact",
    "Keride.Props.C40_creder_partial",
    "Keride.Props.C40_false"
   ],
   "note": "Never accepted at any cut (C40_partial), but every cut at a character boundary with at least 29 bytes left panics instead of returning an error (C40_exact, C40_false)."
  },
  {
   "property": "C41",
   "status": "proved",
   "theorems": [
    "Keride.Props.C41_new",
    "Keride.Props.C41_verify",
    "Keride.Props.C41_constructed",
    "Keride.Props.C41_compare",
    "Keride.Props.C41_compare_text"
   ],
   "note": "Hash functions are abstract with the code's digest length (HashOk). C41_constructed is for texts without '=' characters."
  },
  {
   "property": "C42",
   "status": "proved",
   "theorems": [
    "Keride.Props.C42_signer",
    "Keride.Props.C42_unindexed",
    "Keride.Props.C42_indexed",
    "Keride.Props.C42_limits"
   ],
   "note": "Signature schemes are abstract (CryptoOk: a signature by a seed verifies under its key). Indices from 4096 up are rejected with an error (C42_limits). Signers read from text without '='."
  },
  {
   "property": "C43",
   "status": "partial",
   "theorems": [
    "Keride.Props.C43_digest",
    "Keride.Props.C43_digest_accepts",
    "Keride.Props.C43_sound",
    "Keride.Props.C43_no_rotation",
    "Keride.Props.C43_key_partial",
    "Keride.Props.C43_false",
    "Keride.Props.C43_tamper"
   ],
   "note": "Proved for digest prefixes (C43_digest, C43_digest_accepts, C43_tamper) and, exactly, for key prefixes (C43_key_partial, C43_sound, C43_no_rotation). False for a key text with characters after the key: the derived prefix does not verify (C43_false)."
  },
  {
   "property": "C44",
   "status": "partial",
   "theorems": [
    "Keride.Props.C44_verfer",
    "Keride.Props.C44_diger",
    "Keride.Props.C44_saider",
    "Keride.Props.C44_cigar",
    "Keride.Props.C44_siger",
    "Keride.Props.C44_seqner",
    "Keride.Props.C44_dater",
    "Keride.Props.C44_bexter",
    "Keride.Props.C44_pather",
    "Keride.Props.C44_signer",
    "Keride.Props.C44_number_partial",
    "Keride.Props.C44_salter_partial",
    "Keride.Props.C44_prefixer_partial",
    "Keride.Props.C44_false"
   ],
   "note": "Proved for Verfer, Diger, Saider, Siger, Cigar, Seqner, Dater, Bexter, Pather and Signer; for Number, Salter and Prefixer only when not read from text or binary, where it is false (C44_false)."
  },
  {
   "property": "C45",
   "status": "partial",
   "theorems": [
    "Keride.Props.C45_stretch",
    "Keride.Props.C45_signer",
    "Keride.Props.C45_signers",
    "Keride.Props.C45_signers_distinct",
    "Keride.Props.C45_create_partial",
    "Keride.Props.C45_paths_partial",
    "Keride.Props.C45_false",
    "Keride.Props.C45_tier_false",
    "Keride.Props.C45_overflow"
   ],
   "note": "Paths, counts, codes and tiers of the derived keys are characterised exactly (C45_signer, C45_signers, C45_create_partial, C45_paths_partial). False: (rotation 1, key 17) and (rotation 17, key 1) share a path and so a key (C45_false); the creator's tier is ignored (C45_tier_false)."
  },
  {
   "property": "C46",
   "status": "partial",
   "theorems": [
    "Keride.Props.C46_path_partial",
    "Keride.Props.C46_reject",
    "Keride.Props.C46_path_false",
    "Keride.Props.C46_resolve_partial",
    "Keride.Props.C46_resolve_read",
    "Keride.Props.C46_tail",
    "Keride.Props.C46_resolve_unique",
    "Keride.Props.C46_resolve_names",
    "Keride.Props.C46_resolve_false",
    "Keride.Props.C46_root",
    "Keride.Props.C46_strip_partial",
    "Keride.Props.C46_strip_longer",
    "Keride.Props.C46_strip_false",
    "Keride.Props.C46_starts",
    "Keride.Props.C46_starts_false"
   ],
   "note": "Proved for components that are non-empty and without '-' (C46_path_partial), resolution exactly as Leads (C46_resolve_partial, C46_resolve_unique), and for any path however made exactly as Resolves (C46_resolve_read), tails (C46_tail), root (C46_root) and strip when the root's components are distinct and absent from the path. False otherwise: C46_path_false, C46_resolve_false, C46_strip_false (wrong result or panic), C46_starts_false."
  },
  {
   "property": "C47",
   "status": "partial",
   "theorems": [
    "Keride.Props.C47_roundtrip_partial",
    "Keride.Props.C47_floats_partial",
    "Keride.Props.C47_injective",
    "Keride.Props.C47_reader",
    "Keride.Props.C47_false",
    "Keride.Props.C47_exponents_partial",
    "Keride.Props.C47_injective_floats",
    "Keride.Props.C47_reread"
   ],
   "note": "Injectivity proved for all Values whose object keys are distinct. Parsing back is false beyond 127 levels of nesting, for integers from 2^63 and for exponent floats (C47_false); proved for every other document, floats included, with or without exponent, if they are printed as written (C47_exponents_partial). C47_reread: what was read is read again unchanged from what is written, if printing floats is settled."
  },
  {
   "property": "C48",
   "status": "partial",
   "theorems": [
    "Keride.Props.C48_canonical",
    "Keride.Props.C48_truncation_partial",
    "Keride.Props.C48_truncation_false",
    "Keride.Props.C48_no_panic_partial",
    "Keride.Props.C48_ascii_partial"
   ],
   "note": "Canonicity proved in full. A one-character text panics (C48_truncation_false), so truncation is proved for every other length. C48_no_panic_partial says exactly which texts, of any characters, panic; binary never does."
  },
  {
   "property": "C49",
   "status": "partial",
   "theorems": [
    "Keride.Props.C49_canonical_partial",
    "Keride.Props.C49_canonical_false",
    "Keride.Props.C49_no_panic_partial",
    "Keride.Props.C49_panic_false",
    "Keride.Props.C49_text_partial",
    "Keride.Props.C49_text_bytes_partial"
   ],
   "note": "Canonicity false for '=' in the text and for the lead-byte codes 1z/4z (C49_canonical_false), proved otherwise; no panics on binary and ASCII text. Other texts can panic (C49_panic_false), C49_text_partial and C49_text_bytes_partial say exactly which."
  },
  {
   "property": "C50",
   "status": "partial",
   "theorems": [
    "Keride.Props.C50_false",
    "Keride.Props.C50_no_panic_partial"
   ],
   "note": "False for text padded with '=' (C50_false); proved for every constructor call whose text holds no '='."
  },
  {
   "property": "C51",
   "status": "partial",
   "theorems": [
    "Keride.Props.C51_sound",
    "Keride.Props.C51_accept_partial",
    "Keride.Props.C51_reject",
    "Keride.Props.C51_false"
   ],
   "note": "Soundness proved for all weights and both build modes; acceptance for weights whose sums do not overflow; C51_false: text with two slashes is taken as a weight of one or less."
  },
  {
   "property": "C52",
   "status": "partial",
   "theorems": [
    "Keride.Props.C52_serder_floats_partial",
    "Keride.Props.C52_creder_floats_partial",
    "Keride.Props.C52_serder_partial",
    "Keride.Props.C52_creder_partial",
    "Keride.Props.C52_accepts",
    "Keride.Props.C52_false"
   ],
   "note": "Version string first, floats only if they are printed as written with a point (C52_serder_floats_partial, C52_creder_floats_partial), nesting at most 127, under 4 GiB. False for SAIDs that are not Blake3-256, since new_with_raw takes no code (C52_false)."
  },
  {
   "property": "C53",
   "status": "partial",
   "theorems": [
    "Keride.Props.C53_partial",
    "Keride.Props.C53_false",
    "Keride.Props.C53_reject"
   ],
   "note": "Proved for controller and witness signatures and seals (C53_partial, C53_reject). False for cigars, which are accepted and left out (C53_false)."
  },
  {
   "property": "C54",
   "status": "proved",
   "theorems": [
    "Keride.Props.C54_receipt",
    "Keride.Props.C54_reject",
    "Keride.Props.C54_same",
    "Keride.Props.C54_sample",
    "Keride.Props.C54_sample_reject",
    "Keride.Props.C54_kind"
   ],
   "note": "For Blake3-256 digests, the only ones Serder takes by default; others are refused (C54_reject). The receipts of the sample are the same (C54_same, C54_sample). Other serializations and versions are refused, not replaced (C54_kind)."
  },
  {
   "property": "C55",
   "status": "partial",
   "theorems": [
    "Keride.Props.C55_keys",
    "Keride.Props.C55_next",
    "Keride.Props.C55_witnesses",
    "Keride.Props.C55_sn",
    "Keride.Props.C55_pre",
    "Keride.Props.C55_est",
    "Keride.Props.C55_threshold",
    "Keride.Props.C55_panic",
    "Keride.Props.C55_panic_false",
    "Keride.Props.C55_first_seen_false",
    "Keride.Props.C55_first_seen",
    "Keride.Props.C55_credential"
   ],
   "note": "Exact for keys, next digests, witnesses, thresholds, sequence number, prefix, type and the credential fields, and the first-seen number if written as qb64 (C55_first_seen). False: the first-seen field is read as qb64 (C55_first_seen_false); sn, est and pre panic exactly when their field is absent (C55_panic, C55_panic_false)."
  },
  {
   "property": "C56",
   "status": "proved",
   "theorems": [
    "Keride.Props.C56_log"
   ],
   "note": "For the verifier of the sample code with a store that finds documents by their SAID (Remembers), as long as a log has at most 2^32 events. Signature and hash functions, stream parser, clock and schemas are abstract. A numeric threshold counts signatures, not signers: see C58."
  },
  {
   "property": "C57",
   "status": "proved",
   "theorems": [
    "Keride.Props.C57_agree",
    "Keride.Props.C57_inception",
    "Keride.Props.C57_state"
   ],
   "note": "For events whose first field is the version string and whose numbers are integers or decimals (Ordinary). The version string itself and the text of an event's own SAID are excepted."
  },
  {
   "property": "C58",
   "status": "partial",
   "theorems": [
    "Keride.Props.C58_weights",
    "Keride.Props.C58_number_partial",
    "Keride.Props.C58_false"
   ],
   "note": "Proved for weighted thresholds (C58_weights) and for numeric ones when no index occurs twice (C58_number_partial). False in general: one key signing twice meets the threshold 2 (C58_false)."
  },
  {
   "property": "C59",
   "status": "proved",
   "theorems": [
    "Keride.Props.C59_append",
    "Keride.Props.C59_stop"
   ],
   "note": "C59_append is for every stream and outcome, verified or not. C59_stop: of a refused message nothing is stored."
  },
  {
   "property": "C60",
   "status": "proved",
   "theorems": [
    "Keride.Props.C60_first_seen",
    "Keride.Props.C60_conflict"
   ],
   "note": "For logs of at most 2^32 events. C60_conflict is for the first message of a stream, on any store."
  },
  {
   "property": "C61",
   "status": "partial",
   "theorems": [
    "Keride.Props.C61_recover_partial",
    "Keride.Props.C61_again_partial",
    "Keride.Props.C61_false",
    "Keride.Props.C61_recover",
    "Keride.Props.C61_again"
   ],
   "note": "False of the code once a credential is revoked (C61_false): a stream with a credential and its revocation is accepted, and refused when it is sent again. C61_recover_partial and C61_again_partial: for any messages and any depth of verification, from any store a verifier can have, when no stored credential has been revoked or the stream has none (the clock, by which credentials are too old, is that of the first time). C61_recover and C61_again: from any store at all, for key events, and for transaction events verified with deep = Some(false)."
  },
  {
   "property": "C62",
   "status": "proved",
   "theorems": [
    "Keride.Props.C62_log"
   ],
   "note": "For the verifier of the sample code with a store that finds documents by their SAID, as long as a log has at most 2^32 events. A registry may name its only key as identifier (Derived); the registry an event names need not be that of the event before: see C64."
  },
  {
   "property": "C63",
   "status": "proved",
   "theorems": [
    "Keride.Props.C63_refused",
    "Keride.Props.C63_permanent"
   ],
   "note": "C63_refused for verification, C63_permanent for streams, for logs of at most 2^32 events."
  },
  {
   "property": "C64",
   "status": "partial",
   "theorems": [
    "Keride.Props.C64_partial",
    "Keride.Props.C64_false"
   ],
   "note": "C64_partial: proved for revocations that name the registry of the issuance. False in general: verify_transaction_event does not compare the two, so anyone with a registry can revoke any credential (C64_false)."
  },
  {
   "property": "C65",
   "status": "partial",
   "theorems": [
    "Keride.Props.C65_partial",
    "Keride.Props.C65_false"
   ],
   "note": "C65_partial: proved for key events, issuances and revocations. False for the inception of a registry, whose d is never compared with its content (C65_false)."
  },
  {
   "property": "C66",
   "status": "proved",
   "theorems": [
    "Keride.Props.C66_verified",
    "Keride.Props.C66_stored"
   ],
   "note": "C66_verified is about one call of verify_acdc, C66_stored about everything a verifier keeps. Schema validation is a parameter of the model."
  },
  {
   "property": "C67",
   "status": "proved",
   "theorems": [
    "Keride.Props.C67_once"
   ],
   "note": ""
  },
  {
   "property": "C68",
   "status": "partial",
   "theorems": [
    "Keride.Props.C68_partial",
    "Keride.Props.C68_false"
   ],
   "note": "C68_false: verify_acdc compares neither the signer with the issuer nor the registry of the issuance with the registry of the credential, so that anyone with a registry can forge a credential of anyone. C68_partial covers credentials whose proof and issuance name the issuer and the registry."
  },
  {
   "property": "C69",
   "status": "proved",
   "theorems": [
    "Keride.Props.C69_interact",
    "Keride.Props.C69_rotate",
    "Keride.Props.C69_incept",
    "Keride.Props.C69_delegated",
    "Keride.Props.C69_basic"
   ],
   "note": "Events whose numbers are 64-bit integers, nesting at most 127, under 4 GiB (Sendable); inceptions with an identifier that is a digest (C69_incept), with an identifier that is the only key (C69_basic, for key texts without '='), and delegated ones (C69_delegated)."
  },
  {
   "property": "C70",
   "status": "proved",
   "theorems": [
    "Keride.Props.C70_asked",
    "Keride.Props.C70_asked_rotate",
    "Keride.Props.C70_valid",
    "Keride.Props.C70_delivered",
    "Keride.Props.C70_reaches",
    "Keride.Props.C70_reaches_rotate"
   ],
   "note": "For logs of at most 2^32 events, keys that number their signatures from zero, thresholds all keys meet together (C70_reaches, C70_asked: every numeric one, and weights for the keys there are), no two events with different digested texts and one digest, a store that takes every insertion, where verification is repeated, attachments are read back as received, and to repeat all of it the stack is deep enough for the log."
  },
  {
   "property": "C71",
   "status": "partial",
   "theorems": [
    "Keride.Props.C71_incept",
    "Keride.Props.C71_rotate",
    "Keride.Props.C71_cut_false",
    "Keride.Props.C71_stranger_false",
    "Keride.Props.C71_next_false",
    "Keride.Props.C71_incept_any"
   ],
   "note": "C71_incept and C71_rotate state what is refused. False: cutting witnesses can panic (C71_cut_false), witnesses that are not there can be cut (C71_stranger_false), and incept accepts the next threshold 0, after which the identifier can never rotate (C71_next_false)."
  },
  {
   "property": "C72",
   "status": "partial",
   "theorems": [
    "Keride.Props.C72_bare_false",
    "Keride.Props.C72_operator_false",
    "Keride.Props.C72_delegated_false",
    "Keride.Props.C72_recipient_false",
    "Keride.Props.C72_schema_false",
    "Keride.Props.C72_type_false",
    "Keride.Props.C72_index_false",
    "Keride.Props.C72_weight_false",
    "Keride.Props.C72_zero_false",
    "Keride.Props.C72_number_false",
    "Keride.Props.C72_size_false",
    "Keride.Props.C72_issuer_false",
    "Keride.Props.C72_registry_false",
    "Keride.Props.C72_anchor_false",
    "Keride.Props.C72_proof_false",
    "Keride.Props.C72_partial",
    "Keride.Props.C72_sequence_false",
    "Keride.Props.C72_threshold_false",
    "Keride.Props.C72_key_false",
    "Keride.Props.C72_identifier_false"
   ],
   "note": "C72_partial: streams of key events, transaction events and credentials that are fair (Spec/Fair.lean) neither crash a verifier nor leave it with anything that could, in debug and release builds, with deep verification and without, given enough stack. False in general, in debug and release builds: a message without a type, with a number above i64, shorter than its version string says, with one signature more than keys, more keys than weights or the weight 0/0 panics, and so do a registry without issuer, an issuance under a credential, an anchor that is no seal, the proof of a credential that names an interaction, an event without identifier or sequence number, a threshold with a list in a text, a key of a code with lead bytes, a credential without schema, and edges without a credential, with an operator that is not a text, with DI2I, or with I2I to a credential without recipient (C72_type_false and the other _false theorems). Missing: whether every condition of fairness is needed (the theorems show it for most); the stream parser, signature library, schemas and dates are assumed not to panic."
  },
  {
   "property": "C73",
   "status": "partial",
   "theorems": [
    "Keride.Props.C73_incept_partial",
    "Keride.Props.C73_rotate_partial",
    "Keride.Props.C73_false"
   ],
   "note": "C73_incept_partial and C73_rotate_partial: agreement is always safe; the witnesses that do not fail reach the threshold exactly when their number is not one more than a multiple of three. C73_false: four witnesses get the threshold four although one may fail."
  },
  {
   "property": "C74",
   "status": "partial",
   "theorems": [
    "Keride.Props.C74_partial",
    "Keride.Props.C74_basic",
    "Keride.Props.C74_false",
    "Keride.Props.C74_delegated"
   ],
   "note": "C74_partial: for identifiers that are digests. C74_false: with one key and no kind of identifier asked for, the identifier is the key, and verification refuses the event; C74_basic: no verifier ever keeps such an event. C74_delegated: nor any delegated inception that the library builds."
  },
  {
   "property": "C75",
   "status": "proved",
   "theorems": [
    "Keride.Props.C75_registry",
    "Keride.Props.C75_single",
    "Keride.Props.C75_distinct",
    "Keride.Props.C75_anchor",
    "Keride.Props.C75_accepted"
   ],
   "note": "Documents within Sendable; a store that takes every insertion; where verification is repeated, attachments are read back as received, and to repeat all of it the stack is deep enough for the log."
  },
  {
   "property": "C76",
   "status": "proved",
   "theorems": [
    "Keride.Props.C76_issue",
    "Keride.Props.C76_revoke",
    "Keride.Props.C76_issued",
    "Keride.Props.C76_revoked"
   ],
   "note": "Documents within Sendable; a store that takes every insertion; where verification is repeated, attachments are read back as received, and to repeat all of it the stack is deep enough for the log."
  },
  {
   "property": "C77",
   "status": "proved",
   "theorems": [
    "Keride.Props.C77_credential",
    "Keride.Props.C77_subject",
    "Keride.Props.C77_accepted"
   ],
   "note": "Acceptance is proved for credentials with a registry and without edges, signed with all keys in force, of their schema and not too old; documents within Sendable; a store that takes every insertion; where verification is repeated, attachments are read back as received, and to repeat all of it the stack is deep enough for the log."
  },
  {
   "property": "C78",
   "status": "partial",
   "theorems": [
    "Keride.Props.C78_partial",
    "Keride.Props.C78_false"
   ],
   "note": "C78_partial: for data without a field i. C78_false: a field i of the data replaces the recipient."
  },
  {
   "property": "C79",
   "status": "proved",
   "theorems": [
    "Keride.Props.C79_history",
    "Keride.Props.C79_accepted"
   ],
   "note": "Messages under 4 GiB, at most 2^32 of them; data without floats nested at most 126 deep; thresholds that all keys meet together (Askable); no two events with different digested texts and one digest; a store that takes every insertion; where verification is repeated, attachments are read back as received, and to repeat all of it the stack is deep enough for the log."
  },
  {
   "property": "C80",
   "status": "partial",
   "theorems": [
    "Keride.Props.C80_never",
    "Keride.Props.C80_partial",
    "Keride.Props.C80_false"
   ],
   "note": "C80_partial: when the next threshold is not zero. C80_false: with the next threshold 0 incept creates an identifier whose rotation a verifier refuses; C80_never: no verifier ever has a rotation after such an event."
  },
  {
   "property": "C81",
   "status": "partial",
   "theorems": [
    "Keride.Props.C81_partial",
    "Keride.Props.C81_reject",
    "Keride.Props.C81_keys",
    "Keride.Props.C81_false"
   ],
   "note": "C81_partial: seal, controller and witness signatures; C81_reject: what is refused. C81_false: unindexed signatures are written without their keys, so that endorsements by different keys are the same text (C81_keys)."
  },
  {
   "property": "C82",
   "status": "proved",
   "theorems": [
    "Keride.Props.C82_issued",
    "Keride.Props.C82_revoked",
    "Keride.Props.C82_once"
   ],
   "note": "Credentials without edges, data and rules without floats nested at most 126 deep, messages under 4 GiB, fewer than 2^32 key events, schema valid and issuance not too old; a store that takes every insertion; where verification is repeated, attachments are read back as received, and to repeat all of it the stack is deep enough for the log."
  },
  {
   "property": "C83",
   "status": "partial",
   "theorems": [
    "Keride.Props.C83_partial",
    "Keride.Props.C83_false",
    "Keride.Props.C83_event"
   ],
   "note": "C83_partial: numbers below 2^64. C83_false: every number from 2^64 on comes back as another one, since U128Wrapper does not shift the high half; C83_event: the same for the sequence number of an event, exactly."
  },
  {
   "property": "C84",
   "status": "partial",
   "theorems": [
    "Keride.Props.C84_ked_false",
    "Keride.Props.C84_saidify_false",
    "Keride.Props.C84_malformed_false",
    "Keride.Props.C84_partial",
    "Keride.Props.C84_threshold"
   ],
   "note": "C84_partial: documents given as text, without floats and nested at most 127 deep; C84_threshold: thresholds. False: Serder.ked() traps for every event (C84_ked_false), saidify() traps on every document it should return (C84_saidify_false), text that is no JSON traps (C84_malformed_false)."
  },
  {
   "property": "C85",
   "status": "proved",
   "theorems": [
    "Keride.Props.C85_document",
    "Keride.Props.C85_text",
    "Keride.Props.C85_fields",
    "Keride.Props.C85_verdict",
    "Keride.Props.C85_again",
    "Keride.Props.C85_condition"
   ],
   "note": "SchemaDoc: nested at most 127 deep, fractions that the reader gives back as written, no version field (C85_condition shows that a schema with one can be refused when read back). The schema library is a parameter, and a compiled document does not depend on the others."
  },
  {
   "property": "C86",
   "status": "partial",
   "theorems": [
    "Keride.Props.C86_partial",
    "Keride.Props.C86_unknown",
    "Keride.Props.C86_false"
   ],
   "note": "C86_partial: primed schemas give the verdict of their document. C86_unknown, C86_false: every credential that a verifier with its schema accepts crashes a verifier that did not prime it, even without signatures."
  },
  {
   "property": "C87",
   "status": "proved",
   "theorems": [
    "Keride.Props.C87_deep",
    "Keride.Props.C87_once_false"
   ],
   "note": "C87_deep; the alternative is a circle of digests among the event and those kept for its identifier (Circular). C87_once_false shows that the condition that no SAID is kept twice is needed."
  },
  {
   "property": "C88",
   "status": "partial",
   "theorems": [
    "Keride.Props.C88_partial",
    "Keride.Props.C88_false"
   ],
   "note": "C88_false: a forged event in the store is not looked at when the genuine event with its SAID is sent before an event that continues it; sent alone that event is refused. C88_partial: holds for streams all of whose events are new to the store. Key events only."
  },
  {
   "property": "C89",
   "status": "proved",
   "theorems": [
    "Keride.Props.C89_deep"
   ],
   "note": "C89_deep: for stores reached by verified streams, with a stream parser that reads the attachments again as it read them; logs shorter than 2^32, recursion deep enough."
  },
  {
   "property": "C90",
   "status": "proved",
   "theorems": [
    "Keride.Props.C90_history",
    "Keride.Props.C90_accepted",
    "Keride.Props.C90_fewer"
   ],
   "note": "At most 4096 keys in reserve, messages under 4 GiB, at most 2^32 of them; data without floats nested at most 126 deep; no two events with different digested texts and one digest; a store that takes every insertion; where verification is repeated, attachments are read back as received, and to repeat all of it the stack is deep enough for the log. C90_fewer assumes that no new signing key is one of those in reserve. The mode of these functions that takes keys in place of salts is C114."
  },
  {
   "property": "C91",
   "status": "partial",
   "theorems": [
    "Keride.Props.C91_false",
    "Keride.Props.C91_partial",
    "Keride.Props.C91_salt_false",
    "Keride.Props.C91_pledged_false"
   ],
   "note": "C91_partial: up to sixteen keys, unless the stretching function gives the same bytes for two paths. C91_false: with more, the seventeenth key of rotation 1 is the first of rotation 11, and C91_pledged_false: an identifier rotated with one salt pledges it again after it was used. C91_salt_false: only the first sixteen bytes of a salt matter."
  },
  {
   "property": "C92",
   "status": "proved",
   "theorems": [
    "Keride.Props.C92_accepted",
    "Keride.Props.C92_same"
   ],
   "note": "C92_accepted, C92_same. Messages under 4 GiB, at most 2^32 key events, data and rules without floats nested at most 126 deep, credentials without edges that fit their schema, have a new SAID and are not too old; a store that takes every insertion; each message taken in by its own call, where verification is repeated, attachments are read back as received, and to repeat all of it the stack is deep enough for the log. The library has no function for the message of a registry; the issuer attaches the couple as issue_acdc does."
  },
  {
   "property": "C93",
   "status": "proved",
   "theorems": [
    "Keride.Props.C93_accepted",
    "Keride.Props.C93_same"
   ],
   "note": "C93_accepted, C93_same. As C92, with edges: the recursion of the verifier must be deep enough for the longest chain (the bound depends on the history and is the same for all verifiers). That the sources stand and the edges are met is a condition on the call: issue_acdc itself does not look at the sources."
  },
  {
   "property": "C94",
   "status": "proved",
   "theorems": [
    "Keride.Props.C94_reader",
    "Keride.Props.C94_issuer",
    "Keride.Props.C94_issuers",
    "Keride.Props.C94_same"
   ],
   "note": "C94_reader, C94_issuer, C94_issuers, C94_same. No hypothesis on how attachments are read: ReadsStreams says that the parser takes messages one after the other, and the reader of Spec/Reader meets it. parside itself is not in /repo; that it is such a parser is trusted."
  },
  {
   "property": "C95",
   "status": "proved",
   "theorems": [
    "Keride.Props.C95_streams",
    "Keride.Props.C95_once"
   ],
   "note": "C95_streams, C95_once. As C94, in any division of the messages into streams; the messages report different SAIDs, or two of them have different digested texts with the same digest. A verifier that verifies again skips a message whose SAID it has met in the stream, so it must have met none of the SAIDs of the messages in what it keeps."
  },
  {
   "property": "C96",
   "status": "partial",
   "theorems": [
    "Keride.Props.C96_partial",
    "Keride.Props.C96_issuers",
    "Keride.Props.C96_false"
   ],
   "note": "The code violates it: C96_false, an oddly built registry inception that reports the SAID of an inception of someone else is accepted, and after it in the same stream that inception is skipped without an error; with a store that finds exactly what is stored. C96_partial: if what is stored after the messages of others is in the form that the library gives it (Orderly), the whole stream is accepted and all that the issuers have is stored, or digests collide. C96_issuers: two sessions of issuers that do not know each other, in any division into streams."
  },
  {
   "property": "C97",
   "status": "partial",
   "theorems": [
    "Keride.Props.C97_weights",
    "Keride.Props.C97_number_partial",
    "Keride.Props.C97_false"
   ],
   "note": "C97_weights: with weights it holds for every proof. C97_number_partial: with a number, it holds if no two different signatures of a proof have the same index; the same signature may come more than once. C97_false: one signature sent under two codes is counted twice, because the code is compared with the rest, so that a credential is kept that one of two keys signed, with the threshold 2."
  },
  {
   "property": "C98",
   "status": "partial",
   "theorems": [
    "Keride.Props.C98_never",
    "Keride.Props.C98_refused",
    "Keride.Props.C98_false"
   ],
   "note": "The code violates it. C98_false: an inception with two witnesses, both needed, is kept with no signature of a witness. C98_never: in every history, no event is kept with anything but signatures of its controller. C98_refused: a message that comes with attached material of another kind, such as signatures of witnesses, is refused in every state and nothing is stored."
  },
  {
   "property": "C99",
   "status": "partial",
   "theorems": [
    "Keride.Props.C99_verified",
    "Keride.Props.C99_partial",
    "Keride.Props.C99_stream_partial",
    "Keride.Props.C99_revoked",
    "Keride.Props.C99_false",
    "Keride.Props.C99_shallow_false",
    "Keride.Props.C99_orderly_partial"
   ],
   "note": "C99_verified, C99_partial: with deep verification (the default), a new credential that is the only message of its stream rests on credentials all of which are stored, proven by the proofs stored with them, and in force, whatever else is stored, provided that no stored event reports the SAID of a stored credential. C99_stream_partial: what a new credential in any stream rests on was in force at some moment from the beginning of the stream to its end; C99_revoked: so no stream adds a credential that rests on one revoked before the stream. C99_orderly_partial: the same for a verifier reached by taking in streams, when what it stores is in the form the library gives it, without provisos about SAIDs, unless two named texts collide. The code violates the rest: C99_false, a credential is accepted, revoked, and then in the same stream one that rests on it is accepted; C99_shallow_false, without deep verification revoked credentials can be rested on."
  },
  {
   "property": "C100",
   "status": "partial",
   "theorems": [
    "Keride.Props.C100_partial",
    "Keride.Props.C100_false"
   ],
   "note": "C100_partial: in a store of which nothing was verified, the events kept for the identifier and the event that deep verification accepts form a valid transaction log whose seals are in key event logs valid from their beginning, unless named events form a circle of digests. Missing because the code does not do it: the first event of the registry that an issuance or revocation names is taken as stored; C100_false: with a forged registry in the store an issuance sealed by the forger is accepted."
  },
  {
   "property": "C101",
   "status": "partial",
   "theorems": [
    "Keride.Props.C101_partial",
    "Keride.Props.C101_unique",
    "Keride.Props.C101_string",
    "Keride.Props.C101_false"
   ],
   "note": "C101_partial: reading succeeds exactly on the JSON texts (a grammar stated as a relation, Spec/JsonText.lean) whose integers are in the range of i64 and whose floats are printed with a point, with the value they mean; it is an error exactly on texts that are no JSON. C101_unique, C101_string. False: C101_false, other JSON texts panic. Floating point is a parameter."
  },
  {
   "property": "C102",
   "status": "partial",
   "theorems": [
    "Keride.Props.C102_logs_partial",
    "Keride.Props.C102_tels_partial",
    "Keride.Props.C102_credentials_partial",
    "Keride.Props.C102_once",
    "Keride.Props.C102_guarded",
    "Keride.Props.C102_false"
   ],
   "note": "C102_logs_partial, C102_tels_partial, C102_credentials_partial: when a call has the store to itself from the check of a message to its insertion, and calls take turns between messages in any way, with new calls begun and others ended at any time. False: C102_false, when another call can insert between the check and the insertion, a log gets an interaction and a rotation with one sequence number. The library gives a store no way to make the two one step. C102_guarded: all of it holds when the store refuses an insertion into a log, or the credentials, that changed since the check. C102_once: no credential is kept twice."
  },
  {
   "property": "C103",
   "status": "proved",
   "theorems": [
    "Keride.Props.C103_create",
    "Keride.Props.C103_panics"
   ],
   "note": "C103_create, C103_panics. Key generation is a parameter: a seed of 32 bytes with a public key (Generates)."
  },
  {
   "property": "C104",
   "status": "proved",
   "theorems": [
    "Keride.Props.C104_fork",
    "Keride.Props.C104_honest"
   ],
   "note": "C104_fork (two logs), C104_honest (keys that sign one history: every verifier, in every history, has an initial part of it). Examples: a fork by a controller that signs an interaction and a rotation with one sequence number; a verifier killed midway. Signatures are those that verify among what was received (SignsOnly)."
  },
  {
   "property": "C105",
   "status": "proved",
   "theorems": [
    "Keride.Props.C105_prerotation",
    "Keride.Props.C105_recovery_false",
    "Keride.Props.C105_current"
   ],
   "note": "C105_prerotation (the log of the controller against that of any verifier), C105_current (any place of a verifier's log). C105_recovery_false: the controller's rotation does not get in after such an interaction with its number (the code has no recovery by rotation), so a verifier that received the whole log of the controller need not have its latest keys in force."
  },
  {
   "property": "C106",
   "status": "proved",
   "theorems": [
    "Keride.Props.C106_transactions",
    "Keride.Props.C106_credentials"
   ],
   "note": "C106_transactions, C106_credentials: C62, C66 and C104 together. The registry an event names decides under whom it is kept (RegistryOf); what the code does not compare is said at C64 and C68."
  },
  {
   "property": "C107",
   "status": "partial",
   "theorems": [
    "Keride.Props.C107_status",
    "Keride.Props.C107_controller_partial",
    "Keride.Props.C107_controller_false"
   ],
   "note": "C107_status: proved, for events that name a registry kept as the controller's. C107_controller_partial: verifiers that both keep the inception of a registry agree about its controller. C107_controller_false: the code lets anyone who has a registry issue something under the identifier of a registry that the verifier does not know yet, in an event with a field ii, and takes it for the registry, so that the genuine registry is refused and the stranger controls it."
  },
  {
   "property": "C108",
   "status": "partial",
   "theorems": [
    "Keride.Props.C108_deeper",
    "Keride.Props.C108_message",
    "Keride.Props.C108_keys",
    "Keride.Props.C108_default_deep_false",
    "Keride.Props.C108_default_shallow_false",
    "Keride.Props.C108_stream_false"
   ],
   "note": "C108_deeper: proved for every key event, transaction event and credential in every store; C108_message: for streams of one message. C108_stream_false: a longer stream can be accepted with deep verification and refused without, because a message whose SAID deep verification met is not verified. C108_keys: for key events, to leave the choice out is to verify without. C108_default_deep_false, C108_default_shallow_false: for transaction events it is neither of the two, because verify_anchor takes it for false and verify_transaction_event for true."
  },
  {
   "property": "C109",
   "status": "partial",
   "theorems": [
    "Keride.Props.C109_map",
    "Keride.Props.C109_ordered",
    "Keride.Props.C109_write",
    "Keride.Props.C109_at",
    "Keride.Props.C109_said_false"
   ],
   "note": "C109_map, C109_ordered, C109_write, C109_at: proved. C109_said_false: documents made from one HashMap can have different texts and SAIDs, because its order is kept; a map that keeps its order determines the document (C109_ordered)."
  },
  {
   "property": "C110",
   "status": "partial",
   "theorems": [
    "Keride.Props.C110_partial",
    "Keride.Props.C110_false"
   ],
   "note": "C110_partial: verification of key events depends on the bytes, the index and the ondex of signatures and not at all on their codes. C110_false: a rotation of an Ed25519 key is accepted with one signature whose code is that of ECDSA signatures for current keys only, as by the key committed to; the ondex of such a signature reads as 0."
  },
  {
   "property": "C111",
   "status": "partial",
   "theorems": [
    "Keride.Props.C111_never",
    "Keride.Props.C111_false"
   ],
   "note": "C111_never: after an establishment event none of whose next digests is a Blake3-256 digest no verifier ever has a rotation. C111_false: for each of the eight other digest codes an identifier that lists its next key so is accepted and the rotation to that key is refused. With Blake3-256 digests, which is what the library's key sets make, rotation works (C80_partial)."
  },
  {
   "property": "C112",
   "status": "proved",
   "theorems": [
    "Keride.Props.C112_sizes",
    "Keride.Props.C112_algorithms",
    "Keride.Props.C112_halves"
   ],
   "note": "hash.rs is modelled arm by arm over abstract hash crates. C112_sizes: what is assumed of digests in the other claims (HashOk) follows, and the model's hashDigest is the code's digest. C112_algorithms: the code names the algorithm. C112_halves: Blake3-256 is the first half of Blake3-512."
  },
  {
   "property": "C113",
   "status": "proved",
   "theorems": [
    "Keride.Props.C113_generated"
   ],
   "note": "The loop of ed25519::generate as a relation, since it has no bound: it returns the first key that is not weak, returns if and only if there is one, and one key only. The random generator and the weakness of keys are arbitrary."
  },
  {
   "property": "C114",
   "status": "proved",
   "theorems": [
    "Keride.Props.C114_history",
    "Keride.Props.C114_accepted",
    "Keride.Props.C114_keys"
   ],
   "note": "AwaySession is the protocol: digests of a usable, non-empty key set with a threshold that can be asked of its keys; rotate_partial returns the text without signatures, and the message is made of it with the signatures of the keys that were away and of the new signing keys. Bounds and exceptions as in C90. C114_keys: next keys whose texts do not begin as Blake3-256 digests do (as no key does), fewer than 2^31 of them."
  },
  {
   "property": "C115",
   "status": "proved",
   "theorems": [
    "Keride.Props.C115_float",
    "Keride.Props.C115_back"
   ],
   "note": "Rounding and log2 are arbitrary functions with the laws F32Ok. Up to 2^24 characters. C115_float shows that the exact comparison the rest of the model uses gives the same as the float for numbers that fit."
  },
  {
   "property": "C116",
   "status": "partial",
   "theorems": [
    "Keride.Props.C116_integer",
    "Keride.Props.C116_exact_partial",
    "Keride.Props.C116_float_partial",
    "Keride.Props.C116_back_partial",
    "Keride.Props.C116_false"
   ],
   "note": "Model/Numbers has floats as numbers, separately from the rest of the model, which has them as text. Proved: what each of the four conversions returns (C116_integer, C116_float_partial), that an integer survives exactly when it has at most 53 significant bits (C116_exact_partial) and then comes back (C116_back_partial). The full statement, that a conversion keeps the number or refuses it, is false (C116_false): f64::try_from and i64::try_from round without an error."
  },
  {
   "property": "C117",
   "status": "partial",
   "theorems": [
    "Keride.Props.C117_blind",
    "Keride.Props.C117_refused",
    "Keride.Props.C117_false",
    "Keride.Props.C117_asked_partial"
   ],
   "note": "False in full (C117_false): with nothing in the store but one key event, the call succeeds under a registry that is none, with a source that is none and a schema that is none, and all who have no such registry refuse the issuance. Proved: what the call returns depends on the key events of the issuer and nothing else in the store, on no schema and no clock (C117_blind); the issuance is refused by every verifier that has nothing under the registry named (C117_refused); what the call does ask for (C117_asked_partial). That the messages are accepted when the arguments are right is C82, C92 and C93."
  },
  {
   "property": "C118",
   "status": "proved",
   "theorems": [
    "Keride.Props.C118_same",
    "Keride.Props.C118_ends",
    "Keride.Props.C118_depth"
   ],
   "note": "The functions that call each other are copied in Spec/Ends word for word, with what happens when the depth runs out as a parameter. C118_same: with a panic there the copy is the model. C118_ends: for every reachable store and every stream there is a depth beyond which the outcome does not depend on the depth nor on what happens at its end, so the end is not got to. C118_depth: for key events the number of events kept plus one suffices. The size of the machine's stack is not modelled: the depth grows with the log."
  },
  {
   "property": "C119",
   "status": "partial",
   "theorems": [
    "Keride.Props.C119_sole_partial",
    "Keride.Props.C119_once",
    "Keride.Props.C119_several_false",
    "Keride.Props.C119_false"
   ],
   "note": "False in full: a key event with more seals than one (or none) anchors nothing, whatever the seals are (C119_several_false), shown with a reachable store in which the inception of a registry is refused because its issuer sealed it together with an issuance (C119_false). Proved: an accepted event is the only one its anchor seals (C119_sole_partial), so that no anchor can be used for two events (C119_once). That events sealed alone are accepted is C75 and C76."
  },
  {
   "property": "C120",
   "status": "partial",
   "theorems": [
    "Keride.Props.C120_no_effect_false",
    "Keride.Props.C120_partial",
    "Keride.Props.C120_false"
   ],
   "note": "False of registries: revocations of registries are accepted and kept, and change nothing: with them or without, all other transaction events and all credentials are verified with the same outcome (C120_no_effect_false), shown with a verifier that accepts a credential issued after its registry was revoked (C120_false). Proved for credentials (C120_partial); that the revocation stays is C63."
  },
  {
   "property": "C121",
   "status": "partial",
   "theorems": [
    "Keride.Props.C121_partial",
    "Keride.Props.C121_false",
    "Keride.Props.C121_proof_false",
    "Keride.Props.C121_registry_false"
   ],
   "note": "False: sequence numbers are cut to 32 bits before the key event is looked up, so whatever is accepted with a number is accepted, with the same outcome, when the number is made greater by 2^32: transaction events with their couples (C121_false), credentials with their proofs (C121_proof_false). Couples and proofs are not signed, so anyone who passes messages on can do this. C121_registry_false is a registry accepted with the number 4294967297 where its controller has two events. Proved: the couple has the SAID of a key event of the controller, and its number if that is less than 2^32 (C121_partial)."
  },
  {
   "property": "C122",
   "status": "partial",
   "theorems": [
    "Keride.Props.C122_partial",
    "Keride.Props.C122_codes",
    "Keride.Props.C122_which_partial",
    "Keride.Props.C122_false"
   ],
   "note": "False: the codes for keys, seeds and signatures of NIST P-256, which the library reads and writes, have no names in JavaScript (C122_false); exactly those (C122_which_partial). Proved: names give the codes of the constants of the same name (but for underscores), and different names different codes (C122_partial); the codes of the constants are exactly those that can be sized (C122_codes)."
  },
  {
   "property": "C123",
   "status": "proved",
   "theorems": [
    "Keride.Props.C123_read",
    "Keride.Props.C123_calendar",
    "Keride.Props.C123_thousand",
    "Keride.Props.C123_old",
    "Keride.Props.C123_future",
    "Keride.Props.C123_tick",
    "Keride.Props.C123_offset",
    "Keride.Props.C123_no_panic",
    "Keride.Props.C123_dater",
    "Keride.Props.C123_accepted"
   ],
   "note": "C123_read: dates written are read as the time shown; C123_thousand, C123_old, C123_future: when they are too old; C123_calendar, C123_tick: the day after has the next number, and a second later is later by a second, so time is counted right; C123_offset: dates of other time zones; C123_accepted: what is accepted has a date that can be read and is not too old; C123_no_panic; C123_dater for the date primitive of the current time. Dates in the future are never refused. Of the library chrono the forms of RFC 3339 are modelled; Env.expired, which the other claims leave open, may be taken to be expiredAt."
  },
  {
   "property": "C124",
   "status": "partial",
   "theorems": [
    "Keride.Props.C124_partial",
    "Keride.Props.C124_ascii",
    "Keride.Props.C124_reread",
    "Keride.Props.C124_read",
    "Keride.Props.C124_false"
   ],
   "note": "C124_partial: what is printed, for documents that are not nested deeper than 127 and whose floats are written as they are printed: the lines of the document, JSON for it, whole or cut at exactly the bytes asked for, and when it panics; C124_ascii: ASCII documents are always printed; C124_reread: with enough bytes the text is read as the document; C124_read: documents read from messages meet the hypotheses. The full claim is false (C124_false): the cut is made at a number of bytes, 1024 by default, and panics inside a character of several bytes; documents made from maps that are nested 128 deep are not printed."
  },
  {
   "property": "C125",
   "status": "partial",
   "theorems": [
    "Keride.Props.C125_partial",
    "Keride.Props.C125_differ_partial",
    "Keride.Props.C125_false"
   ],
   "note": "C125_partial: what u of the credential and of its subject are, if the data has no field u; C125_differ_partial: different bytes drawn give different credentials and subjects. That bytes drawn are 16 is a hypothesis on the random generator. The full claim is false (C125_false): a field u of the data replaces the random one, so the subjects of private credentials with different bytes drawn are equal."
  }
 ]
}