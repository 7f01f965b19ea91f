{"id": "C01", "title": "Base64 integer text round-trips", "statement": "For every length >= 1 and every n < 64^length, u32_to_b64/u64_to_b64 produce a string of exactly `length` Base64-URL characters and b64_to_u32/b64_to_u64 of that string give n back; distinct n give distinct strings.", "quantifier": "all lengths and all in-range u32/u64 values", "why_tests_cant": "the domain is 2^64 values times every length", "anchors": ["src/cesr/core/util.rs:u32_to_b64", "src/cesr/core/util.rs:u64_to_b64", "src/cesr/core/util.rs:b64_to_u32", "src/cesr/core/util.rs:b64_to_u64"]}
{"id": "C02", "title": "Code text/binary conversion round-trips", "statement": "For every Base64 code string of 1 to 8 characters, code_b2_to_b64(code_b64_to_b2(s) ++ anything, len s) = s, code_b64_to_b2 has ceil(3*len/4) bytes, and nab_sextets returns the Base64 indices of the same leading characters.", "quantifier": "all Base64 strings of length 1..8, all trailing bytes", "why_tests_cant": "64^8 strings and unbounded trailing data", "anchors": ["src/cesr/core/util.rs:code_b64_to_b2", "src/cesr/core/util.rs:code_b2_to_b64", "src/cesr/core/util.rs:nab_sextets"]}
{"id": "C03", "title": "Matter qb64 round-trip", "statement": "If Matter::new accepts (code, raw) with a code that is in the code table, then qb64() succeeds and parsing it yields the same code, size and raw.", "quantifier": "every code in the table, every raw byte string the constructor accepts", "why_tests_cant": "unbounded raw material, every code", "anchors": ["src/cesr/core/matter/mod.rs:new_with_code_and_raw", "src/cesr/core/matter/mod.rs:infil", "src/cesr/core/matter/mod.rs:exfil", "src/cesr/core/matter/tables.rs:sizage"]}
{"id": "C04", "title": "Matter qb2 round-trip", "statement": "If Matter::new accepts (code, raw) with a table code, then qb2() succeeds and parsing it yields the same code, size and raw.", "quantifier": "every code, every accepted raw", "why_tests_cant": "unbounded raw material", "anchors": ["src/cesr/core/matter/mod.rs:binfil", "src/cesr/core/matter/mod.rs:bexfil"]}
{"id": "C05", "title": "Text and binary domains agree (composability)", "statement": "For every primitive built from code and raw, the URL-safe Base64 decoding of qb64() is exactly qb2(); hence text->binary->text conversion through the library equals plain Base64 conversion of the stream.", "quantifier": "every code, every accepted raw", "why_tests_cant": "unbounded raw material; relates two independent encoders", "anchors": ["src/cesr/core/matter/mod.rs:infil", "src/cesr/core/matter/mod.rs:binfil"]}
{"id": "C06", "title": "full_size is the true size", "statement": "For every primitive built from code and raw, qb64() has exactly full_size() characters, full_size() is a multiple of 4 and qb2() has exactly 3/4 of that many bytes.", "quantifier": "every code, every accepted raw", "why_tests_cant": "unbounded raw material", "anchors": ["src/cesr/core/matter/mod.rs:full_size", "src/cesr/core/matter/mod.rs:infil", "src/cesr/core/matter/mod.rs:binfil"]}
{"id": "C07", "title": "Self-framing: trailing data never changes a parse", "statement": "Appending any text (any bytes) after a primitive's qb64 (qb2) does not change what is parsed from it.", "quantifier": "every primitive and every continuation", "why_tests_cant": "unbounded continuation; stream parsing relies on it", "anchors": ["src/cesr/core/matter/mod.rs:exfil", "src/cesr/core/matter/mod.rs:bexfil"]}
{"id": "C08", "title": "Encodings are prefix-free and injective", "statement": "If the qb64 of one primitive is a prefix of the qb64 of another then they are the same primitive; likewise qb2. Distinct primitives have distinct encodings.", "quantifier": "all pairs of primitives", "why_tests_cant": "quadratic in an infinite domain", "anchors": ["src/cesr/core/matter/mod.rs:infil", "src/cesr/core/matter/mod.rs:binfil"]}
{"id": "C09", "title": "Only canonical encodings are accepted", "statement": "If parsing text (bytes) succeeds, re-encoding the result yields exactly the first full_size characters (bytes) of the input, so there is one accepted spelling per value.", "quantifier": "every input string and every input byte string", "why_tests_cant": "all strings; malleability is a property of the absence of a second spelling", "anchors": ["src/cesr/core/matter/mod.rs:exfil", "src/cesr/core/matter/mod.rs:bexfil"]}
{"id": "C10", "title": "Truncated material is rejected", "statement": "Every proper prefix of a valid qb64 or qb2 is rejected with an error: never accepted, never a panic.", "quantifier": "every primitive, every cut point", "why_tests_cant": "every crash/cut point of an unbounded stream", "anchors": ["src/cesr/core/matter/mod.rs:exfil", "src/cesr/core/matter/mod.rs:bexfil"]}
{"id": "C11", "title": "Parsing never panics", "statement": "new_with_qb64, new_with_qb64b and new_with_qb2 return Ok or Err on every input; no input text or bytes crashes the caller.", "quantifier": "all strings, all byte strings", "why_tests_cant": "adversarial inputs: the domain is all strings", "anchors": ["src/cesr/core/matter/mod.rs:exfil", "src/cesr/core/matter/mod.rs:bexfil", "src/cesr/core/matter/tables.rs:hardage"]}
{"id": "C12", "title": "Constructor argument priority", "statement": "Matter::new uses raw+code first, then qb64b, then qb64, then qb2 and ignores the lower-priority arguments entirely; raw without code and no material at all are errors.", "quantifier": "all argument combinations", "why_tests_cant": "all combinations of five optional unbounded arguments", "anchors": ["src/cesr/core/matter/mod.rs:new"]}
{"id": "C13", "title": "Variable-length code selection", "statement": "For a variable-size code family the constructor chooses the lead size that makes lead+raw a multiple of three, the small form exactly when the quadlet count is below 4096 (large form always stays large), records size = (lead+raw)/3, keeps raw intact and rejects raw needing 64^4 quadlets or more.", "quantifier": "all raw lengths, all starting lead variants", "why_tests_cant": "boundaries at 4096 and 16777216 quadlets; unbounded lengths", "anchors": ["src/cesr/core/matter/mod.rs:new_with_code_and_raw"]}
{"id": "C14", "title": "Fixed-size raw handling", "statement": "For a fixed-size code the constructor rejects raw shorter than the table size and otherwise keeps exactly the first raw_size(code) bytes.", "quantifier": "all codes, all raw", "why_tests_cant": "unbounded raw", "anchors": ["src/cesr/core/matter/mod.rs:new_with_code_and_raw", "src/cesr/core/matter/tables.rs:raw_size"]}
{"id": "C15", "title": "Transferable/digest classification", "statement": "transferable() is false exactly for the non-transferable verification key codes (Ed25519N, ECDSA_256k1N, ECDSA_256r1N, Ed448N) and digestive() is true exactly for the nine digest codes.", "quantifier": "all code strings", "why_tests_cant": "all strings", "anchors": ["src/cesr/core/matter/mod.rs:transferable", "src/cesr/core/matter/mod.rs:digestive"]}
{"id": "C16", "title": "Indexer qb64 round-trip", "statement": "If Indexer::new accepts (code, raw, index, ondex) for an indexed-signature code, qb64() succeeds and parsing it returns the same code, raw, index and the ondex that was requested.", "quantifier": "all signature codes, indices, ondices, raws", "why_tests_cant": "all u32 index/ondex pairs and raws", "anchors": ["src/cesr/core/indexer/mod.rs:new_with_code_and_raw", "src/cesr/core/indexer/mod.rs:infil", "src/cesr/core/indexer/mod.rs:exfil", "src/cesr/core/indexer/tables.rs:sizage"]}
{"id": "C17", "title": "Indexer qb2 round-trip and agreement with qb64", "statement": "For the same objects qb2() succeeds without panicking, equals the Base64 decoding of qb64() and parses back to the same object.", "quantifier": "all signature codes, indices, ondices, raws", "why_tests_cant": "all u32 index/ondex pairs and raws", "anchors": ["src/cesr/core/indexer/mod.rs:binfil", "src/cesr/core/indexer/mod.rs:bexfil"]}
{"id": "C18", "title": "Indexer index bounds", "statement": "Indexer::new accepts an index/ondex exactly when it fits the code's index field (64^ms, 64^os), rejects an ondex for current-only codes, and never silently truncates an index.", "quantifier": "all u32 pairs, all codes", "why_tests_cant": "all u32 pairs", "anchors": ["src/cesr/core/indexer/mod.rs:new_with_code_and_raw"]}
{"id": "C19", "title": "Indexer framing", "statement": "Indexer qb64 length equals full_size(), trailing data never changes the parse, truncation is rejected with an error.", "quantifier": "all indexed signatures, all continuations, all cut points", "why_tests_cant": "unbounded continuations", "anchors": ["src/cesr/core/indexer/mod.rs:exfil", "src/cesr/core/indexer/mod.rs:bexfil", "src/cesr/core/indexer/mod.rs:full_size"]}
{"id": "C20", "title": "Counter round-trip", "statement": "Every counter accepted by new_with_code_and_count encodes to qb64 and qb2 and parses back to the same code and count, with any trailing data; qb2 is the Base64 decoding of qb64 and full_size is the length.", "quantifier": "all codes, all u32 counts, all continuations", "why_tests_cant": "all u32 counts and continuations", "anchors": ["src/cesr/core/counter/mod.rs:infil", "src/cesr/core/counter/mod.rs:binfil", "src/cesr/core/counter/mod.rs:exfil", "src/cesr/core/counter/mod.rs:bexfil", "src/cesr/core/counter/tables.rs:sizage"]}
{"id": "C21", "title": "Counter range", "statement": "new_with_code_and_count succeeds exactly for codes in the table and counts below 64^ss; a count never wraps.", "quantifier": "all code strings, all u32 counts", "why_tests_cant": "all u32", "anchors": ["src/cesr/core/counter/mod.rs:new_with_code_and_count", "src/cesr/core/counter/mod.rs:new"]}
{"id": "C22", "title": "Semantic version encoding", "statement": "sem_ver_to_b64 accepts exactly major, minor, patch <= 63, yields three characters, is injective, and sem_ver_str_to_b64 of the dotted decimal text gives the same result.", "quantifier": "all u8 triples; all version strings", "why_tests_cant": "256^3 triples and all strings", "anchors": ["src/cesr/core/counter/mod.rs:sem_ver_to_b64", "src/cesr/core/counter/mod.rs:sem_ver_str_to_b64"]}
{"id": "C23", "title": "Number is lossless and minimal", "statement": "Number::new_with_num(n).num() = n for every u128; numh() parses back to n; the code chosen is the smallest of the four that can hold n; qb64/qb2 round-trips preserve n.", "quantifier": "all u128", "why_tests_cant": "2^128 values", "anchors": ["src/cesr/core/number.rs:new", "src/cesr/core/number.rs:num", "src/cesr/core/number.rs:numh"]}
{"id": "C24", "title": "Number accessors never panic", "statement": "For every Number obtained from any constructor, num(), numh() and positive() return Ok or Err.", "quantifier": "all inputs to all constructors", "why_tests_cant": "adversarial text", "anchors": ["src/cesr/core/number.rs:num", "src/cesr/core/number.rs:new"]}
{"id": "C25", "title": "Seqner is lossless and order preserving", "statement": "Seqner::new_with_sn(n).sn() = n for every u128, its qb64 has 24 characters, and numeric order of sequence numbers is the byte order of their qb2.", "quantifier": "all pairs of u128", "why_tests_cant": "2^256 pairs", "anchors": ["src/cesr/core/seqner.rs:new", "src/cesr/core/seqner.rs:sn"]}
{"id": "C26", "title": "Dater round-trip", "statement": "For every 32-character ISO-8601 date-time text (digits, '-', 'T', ':', '.', '+'), new_with_dts(dts).dts() = dts, and qb64/qb2 preserve it.", "quantifier": "all 32-character date-times", "why_tests_cant": "all timestamps and offsets", "anchors": ["src/cesr/core/dater.rs:new", "src/cesr/core/dater.rs:dts"]}
{"id": "C27", "title": "Bexter text round-trip", "statement": "new_with_bext(t).bext() = t for every Base64-alphabet text t, also through qb64 and qb2.", "quantifier": "all Base64 texts", "why_tests_cant": "all strings of all lengths", "anchors": ["src/cesr/core/bexter.rs:rawify", "src/cesr/core/bexter.rs:bext"]}
{"id": "C28", "title": "Numeric threshold soundness", "statement": "A numeric threshold of n is satisfied by a set of signer indices exactly when it holds at least n distinct indices, and 0 is never satisfied.", "quantifier": "all thresholds, all index lists", "why_tests_cant": "all index lists", "anchors": ["src/cesr/core/tholder.rs:satisfy_numeric"]}
{"id": "C29", "title": "Weighted threshold soundness and completeness", "statement": "A weighted threshold is satisfied by a list of indices exactly when, in every clause, the exact rational sum of the weights at the signed positions is at least 1; order and repetition of indices do not matter.", "quantifier": "all weight structures, all index lists", "why_tests_cant": "exact arithmetic over all fractions and all subsets", "anchors": ["src/cesr/core/tholder.rs:satisfy_weighted", "src/cesr/core/tholder.rs:values_to_rationals"]}
{"id": "C30", "title": "More signatures never hurt", "statement": "If a threshold is satisfied by some indices it is satisfied by every superset of valid indices.", "quantifier": "all thresholds, all pairs of index lists", "why_tests_cant": "all supersets", "anchors": ["src/cesr/core/tholder.rs:satisfy"]}
{"id": "C31", "title": "No threshold is satisfied by nobody, every accepted one is satisfiable", "statement": "No Tholder accepted by a constructor is satisfied by the empty index list, and every accepted weighted Tholder is satisfied when all positions sign.", "quantifier": "all thold/limen/sith inputs", "why_tests_cant": "all inputs", "anchors": ["src/cesr/core/tholder.rs:process_weighted", "src/cesr/core/tholder.rs:process_sith", "src/cesr/core/tholder.rs:process_thold"]}
{"id": "C32", "title": "Threshold sith/limen round-trip", "statement": "new_with_sith(t.sith()) and new_with_limen(t.limen()) rebuild the same threshold.", "quantifier": "all accepted thresholds", "why_tests_cant": "all weight structures", "anchors": ["src/cesr/core/tholder.rs:sith", "src/cesr/core/tholder.rs:limen", "src/cesr/core/tholder.rs:process_limen"]}
{"id": "C33", "title": "Threshold evaluation never panics", "statement": "satisfy() returns Ok or Err for every accepted Tholder and every index list, and the constructors return Ok or Err on every input.", "quantifier": "all index lists; all sith values", "why_tests_cant": "adversarial indices and weights", "anchors": ["src/cesr/core/tholder.rs:satisfy_weighted", "src/cesr/core/tholder.rs:values_to_rationals"]}
{"id": "C34", "title": "Version string round-trip", "statement": "deversify(versify(ident, version, kind, size)) returns the same ident, version, kind and size for every version whose parts fit in one hex digit each and every size that fits in six; deversify accepts only strings of exactly that form and never panics; versify of anything that does not fit is never accepted back as something else.", "quantifier": "all sizes, versions; all strings", "why_tests_cant": "2^24 sizes x versions and all strings", "anchors": ["src/cesr/core/common.rs:versify", "src/cesr/core/common.rs:deversify"]}
{"id": "C35", "title": "sizeify records the true size", "statement": "When sizeify succeeds, the returned raw is the JSON of the returned ked, its length is the size in its version string, and every other field is unchanged.", "quantifier": "all key event dictionaries", "why_tests_cant": "all documents", "anchors": ["src/cesr/core/common.rs:sizeify"]}
{"id": "C36", "title": "sniff recovers what sizeify wrote", "statement": "sniff on any bytes that start with a sizeify'd message returns that message's ident, kind, version and size, whatever follows.", "quantifier": "all documents and continuations", "why_tests_cant": "all documents and continuations", "anchors": ["src/cesr/core/common.rs:sniff", "src/cesr/core/sadder.rs:inhale"]}
{"id": "C37", "title": "saidify then verify", "statement": "After saidify succeeds, verify of the returned SAID on the returned document is true, with the SAID stored at the label, and saidify is idempotent.", "quantifier": "all documents, codes, labels, hash functions", "why_tests_cant": "all documents", "anchors": ["src/cesr/core/saider.rs:saidify", "src/cesr/core/saider.rs:verify", "src/cesr/core/saider.rs:derive"]}
{"id": "C38", "title": "SAID tamper evidence", "statement": "If verify accepts two documents under the same SAID then, apart from the SAID field itself, their digested serialisations are equal, or are themselves two different texts with the same digest.", "quantifier": "all pairs of documents", "why_tests_cant": "all pairs of documents", "anchors": ["src/cesr/core/saider.rs:verify", "src/cesr/core/saider.rs:derive"]}
{"id": "C39", "title": "Message constructors authenticate the SAID", "statement": "Serder/Creder::new_with_raw accept a message only if the embedded SAID is the digest of its content.", "quantifier": "all raw messages", "why_tests_cant": "all tampered messages", "anchors": ["src/cesr/core/sadder.rs:populate_from_raw", "src/cesr/core/serder.rs:new_with_raw"]}
{"id": "C40", "title": "Truncated messages are rejected without panic", "statement": "Serder::new_with_raw on any proper prefix of a serialised message returns Err.", "quantifier": "all messages, all cut points", "why_tests_cant": "all cut points", "anchors": ["src/cesr/core/sadder.rs:populate_from_raw", "src/cesr/core/common.rs:loads"]}
{"id": "C41", "title": "Digest verification is exact", "statement": "Diger::new_with_ser(ser, code).verify(ser') is true exactly when the digests of ser and ser' under code are equal; compare() accepts exactly equal digests or two digests of the same ser.", "quantifier": "all codes, serialisations, hash functions", "why_tests_cant": "all byte strings", "anchors": ["src/cesr/core/diger.rs:new", "src/cesr/core/diger.rs:verify", "src/cesr/core/diger.rs:compare"]}
{"id": "C42", "title": "Signatures made by a Signer verify", "statement": "For every signer and data, sign_unindexed and sign_indexed yield objects whose attached verfer is the signer's and accepts the signature; the indexed code chosen can represent the requested index and ondex.", "quantifier": "all seeds, data, indices, ondices", "why_tests_cant": "all u32 indices and all data", "anchors": ["src/signing/signer.rs:sign_indexed", "src/signing/signer.rs:sign_unindexed", "src/cesr/core/verfer.rs:verify"]}
{"id": "C43", "title": "Identifier prefix derivation is verifiable", "statement": "If Prefixer::new derives a prefix from an inception event, then verify of that prefix on the event (with its prefix filled in) is true; verify never accepts a basic prefix that is not the event's single key.", "quantifier": "all inception events, all codes", "why_tests_cant": "all events", "anchors": ["src/prefexing/prefixer.rs:new", "src/prefexing/prefixer.rs:verify"]}
{"id": "C44", "title": "Typed primitives only hold their own codes", "statement": "Every value obtained from Verfer, Diger, Saider, Siger, Cigar, Seqner, Dater, Bexter, Signer, Number, Salter and Prefixer constructors carries a code from that type's code set.", "quantifier": "all constructor inputs", "why_tests_cant": "all strings", "anchors": ["src/cesr/core/verfer.rs:new", "src/cesr/core/salter.rs:new", "src/prefexing/prefixer.rs:new", "src/cesr/core/number.rs:new"]}
{"id": "C45", "title": "Distinct key indices give distinct derivation paths", "statement": "SaltyCreator::create and Salter::signers derive each key from its own path: different (rotation index, key index) pairs never share a path, and the requested security tier is used.", "quantifier": "all index pairs, counts, stems", "why_tests_cant": "all u16 pairs", "anchors": ["src/signify/creating.rs:create", "src/signify/creating.rs:new", "src/cesr/core/salter.rs:signers"]}
{"id": "C46", "title": "SAD path round-trip and resolution", "statement": "Pather::new_with_path(p).path() = p, resolve walks exactly the components of the path, root() concatenates and strip() undoes root().", "quantifier": "all paths, all documents", "why_tests_cant": "all paths and documents", "anchors": ["src/pathing/pather.rs:bextify", "src/pathing/pather.rs:path", "src/pathing/pather.rs:strip", "src/pathing/pather.rs:resolve"]}
{"id": "C47", "title": "JSON serialisation is faithful", "statement": "Two Values without floats have the same to_json text only if they are equal, and parsing the text gives the Value back.", "quantifier": "all Values", "why_tests_cant": "all nested documents", "anchors": ["src/data.rs:to_json", "src/data.rs:From<&JsonValue>"]}
{"id": "C48", "title": "Counter parsing is canonical and total", "statement": "If a Counter parses from text or binary then the consumed prefix is exactly its own encoding; every proper prefix of an encoding is rejected with an error; parsing never panics.", "quantifier": "all texts and byte strings", "why_tests_cant": "every string and every truncation point", "anchors": ["src/cesr/core/counter/mod.rs:exfil", "src/cesr/core/counter/mod.rs:bexfil"]}
{"id": "C49", "title": "Indexer parsing is canonical and total", "statement": "If an Indexer parses from text or binary then the consumed prefix is exactly its own encoding, and parsing never panics.", "quantifier": "all texts and byte strings", "why_tests_cant": "every string", "anchors": ["src/cesr/core/indexer/mod.rs:exfil", "src/cesr/core/indexer/mod.rs:bexfil"]}
{"id": "C50", "title": "Sequence number accessors never panic", "statement": "Every Seqner a constructor accepts answers sn() and snh() without a panic.", "quantifier": "all texts, byte strings and arguments Seqner constructors accept", "why_tests_cant": "every input", "anchors": ["src/cesr/core/seqner.rs:new", "src/cesr/core/seqner.rs:sn"]}
{"id": "C51", "title": "Only satisfiable weights are accepted", "statement": "A weighted threshold expression is accepted exactly when every weight is a fraction between 0 and 1 and the weights of each clause add up to at least 1.", "quantifier": "all weight structures", "why_tests_cant": "all fractions and clause lengths", "anchors": ["src/cesr/core/tholder.rs:process_weighted", "src/cesr/core/tholder.rs:values_to_rationals"]}
{"id": "C52", "title": "Messages are read back as written", "statement": "An event or credential written by new_with_ked is read back by new_with_raw from its bytes followed by any text: same document, bytes, size and SAID.", "quantifier": "all documents, all continuations", "why_tests_cant": "all documents and continuations", "anchors": ["src/cesr/core/sadder.rs:populate_from_ked", "src/cesr/core/sadder.rs:populate_from_raw", "src/cesr/core/serder.rs:new_with_raw", "src/cesr/core/creder.rs:new_with_raw"]}
{"id": "C53", "title": "Attached signatures are complete and delimited", "statement": "A message built by messagize is the event text followed by attachments from which a reader, taking one element after the other by its own size, recovers the seal header, exactly the controller signatures in order and exactly the witness signatures; signatures by non-transferable keys are attached too.", "quantifier": "all events, seals and signature lists", "why_tests_cant": "all lists of all lengths", "anchors": ["src/messaging.rs:messagize", "src/seal.rs:Seal"]}
{"id": "C54", "title": "Receipts name their event", "statement": "receipt(pre, sn, said) gives an event that reports exactly this identifier, sequence number and digest, and that is read back from its bytes followed by any text; a digest of another kind is refused, and so is any serialization but JSON and any version but 1.0.", "quantifier": "all identifiers, sequence numbers, digests, versions and kinds of serialization", "why_tests_cant": "all u128 and all texts", "anchors": ["src/receipting.rs:receipt", "sample/keri/kmi/message.rs:receipt"]}
{"id": "C55", "title": "Event accessors report what the event says", "statement": "verfers, digers, werfers, tholder, ntholder, sn, pre and est of an event (issuer, schema, status, chains of a credential) are exactly its fields, in order; first-seen numbers are read like sequence numbers; no accessor panics on an event that was read.", "quantifier": "all events", "why_tests_cant": "all documents", "anchors": ["src/cesr/core/serder.rs:verfers", "src/cesr/core/serder.rs:sn", "src/cesr/core/serder.rs:fner", "src/cesr/core/creder.rs:status"]}
{"id": "C56", "title": "Verified key event logs", "statement": "Whatever streams a verifier takes in, whatever their outcome and wherever the process is killed, the log it keeps for an identifier is empty or a valid key event log: an inception whose SAID is the identifier, then events with consecutive sequence numbers, each with the SAID of the one before, the fields of its type, a SAID that is the digest of its content, signatures by the keys in force that meet their threshold, and for rotations signatures by keys the establishment event before committed to; every stored event and signature was received.", "quantifier": "all histories of streams, outcomes and kill points, all identifiers", "why_tests_cant": "all histories and adversarial streams", "anchors": ["sample/keri/parsing.rs:ingest_messages", "sample/keri/kmi/verification.rs:verify_key_event"]}
{"id": "C57", "title": "Logs that share an event share its past", "statement": "If two valid logs of one identifier contain events with the same SAID, these are at the same place and all events up to them agree (keys, thresholds, digests, anchors), unless two events of the logs were digested from different texts with the same digest; in particular their inceptions agree.", "quantifier": "all pairs of valid logs, all places", "why_tests_cant": "all pairs of histories", "anchors": ["sample/keri/kmi/verification.rs:verify_key_event", "src/cesr/core/saider.rs:verify"]}
{"id": "C58", "title": "Thresholds count signers", "statement": "An event in a verified log was signed by enough of the keys in force: distinct keys whose number or weights meet the threshold.", "quantifier": "all valid logs, all places", "why_tests_cant": "all adversarial signature lists", "anchors": ["sample/keri/kmi/verification.rs:verify_key_event", "src/cesr/core/tholder.rs:satisfy"]}
{"id": "C59", "title": "A store only grows, message by message", "statement": "Taking in a stream, whatever it is, whatever the settings and the outcome, loses, changes or moves nothing that was stored; and when a stream is refused the store is as after the messages before the refused one.", "quantifier": "all streams, stores, settings", "why_tests_cant": "all streams and outcomes", "anchors": ["sample/keri/parsing.rs:ingest_messages"]}
{"id": "C60", "title": "First seen wins", "statement": "An event for a place of a log that is taken verifies only when its SAID is that of the event there; an event that conflicts is refused and changes nothing; an event beyond the end of a log does not verify.", "quantifier": "all stores and events", "why_tests_cant": "all conflicting events", "anchors": ["sample/keri/kmi/verification.rs:verify_key_event", "sample/keri/parsing.rs:ingest_messages"]}
{"id": "C61", "title": "A stream can be sent again", "statement": "After the process was killed anywhere in a stream that would have been accepted, sending the whole stream again is accepted and gives the same store as without the crash; and an accepted stream is accepted again at any later time, without effect.", "quantifier": "all streams, all kill points, all later stores", "why_tests_cant": "all kill points and histories", "anchors": ["sample/keri/parsing.rs:ingest_messages"]}
{"id": "C62", "title": "Verified transaction logs", "statement": "Whatever streams a verifier takes in, whatever their outcome and wherever the process is killed, the transaction log it keeps for a registry or credential is empty or valid: the inception of a registry whose identifier is derived from its content and that an event in the valid key event log of its controller seals, or an issuance; then revocations with consecutive sequence numbers, each with the SAID of the event before; issuances and revocations have a SAID that is the digest of their content and are sealed in the valid key event log of the controller of the registry they name.", "quantifier": "all histories of streams, outcomes and kill points, all identifiers", "why_tests_cant": "all histories and adversarial streams", "anchors": ["sample/keri/acdc/tel/verification.rs:verify_transaction_event", "sample/keri/verification.rs:verify_anchor", "sample/keri/parsing.rs:ingest_messages"]}
{"id": "C63", "title": "Revocation is permanent", "statement": "Once a verifier has stored the revocation of a credential, it refuses the credential whatever proof comes with it and whatever the options, and whatever stream it takes in later, the revocation stays and no credential with that SAID is stored.", "quantifier": "all histories before, all streams after", "why_tests_cant": "all later streams", "anchors": ["sample/keri/acdc/verification.rs:verify_acdc", "sample/keri/acdc/tel/verification.rs:verify_transaction_event"]}
{"id": "C64", "title": "Only the issuer revokes", "statement": "A stored revocation of a credential is sealed in the key event log of the controller of the registry under which it was issued.", "quantifier": "all histories, all credentials", "why_tests_cant": "all adversarial streams", "anchors": ["sample/keri/acdc/tel/verification.rs:verify_transaction_event"]}
{"id": "C65", "title": "SAIDs of stored events are digests of their content", "statement": "The SAID of every stored key event and transaction event is the digest of its content.", "quantifier": "all histories, all stored events", "why_tests_cant": "all adversarial streams", "anchors": ["sample/keri/kmi/verification.rs:verify_key_event", "sample/keri/acdc/tel/verification.rs:verify_transaction_event"]}
{"id": "C66", "title": "Accepted credentials are proven", "statement": "A credential a verifier accepts has a registry, a SAID that is the digest of its content, fits its schema, has a root proof all of whose signature sets meet the threshold of a stored key event of the signer named, edges that lead to stored credentials that fit the schema and relation the edge names, and a last transaction event that is neither a revocation nor too old. Whatever streams are taken in and wherever the process is killed, every credential kept was received and is proven by the key events kept and the credentials kept before it, so chains of credentials end and never form a circle.", "quantifier": "all histories of streams, outcomes and kill points, all credentials and proofs", "why_tests_cant": "all histories and adversarial streams", "anchors": ["sample/keri/acdc/verification.rs:verify_acdc", "sample/keri/parsing.rs:ingest_messages"]}
{"id": "C67", "title": "A credential is kept once", "statement": "Whatever streams are taken in, a verifier never keeps two credentials with one SAID.", "quantifier": "all histories", "why_tests_cant": "all histories and adversarial streams", "anchors": ["sample/keri/parsing.rs:ingest_messages", "sample/keri/acdc/verification.rs:verify_acdc"]}
{"id": "C68", "title": "Credentials come from their issuer", "statement": "A credential a verifier keeps is signed by keys of the issuer it names, and its issuance is sealed in the key event log of the controller of the registry it names.", "quantifier": "all histories, all credentials", "why_tests_cant": "all adversarial streams", "anchors": ["sample/keri/acdc/verification.rs:verify_acdc", "sample/keri/acdc/tel/verification.rs:verify_transaction_event"]}
{"id": "C69", "title": "Built events are well formed", "statement": "An inception, rotation or interaction event built by the library has exactly the fields of its type in order with the arguments in them (thresholds by default half of the keys, rounded up), bytes that are its JSON text, a version string with their number, a SAID that is the digest of its content (for an inception also its identifier), and is read back from its bytes whatever follows them.", "quantifier": "all keys, thresholds, witnesses, seals, sequence numbers, hash functions", "why_tests_cant": "all arguments", "anchors": ["sample/keri/kmi/event.rs:incept", "sample/keri/kmi/event.rs:rotate", "sample/keri/kmi/event.rs:interact"]}
{"id": "C70", "title": "What a controller signs, verifiers accept", "statement": "The log of a controller that creates an identifier that is a digest and then interacts and rotates in any order with the library, signing with the keys in force, is a valid key event log; and a verifier that holds the first events of it, possibly none, and is sent the others in order, accepts and stores them all and changes nothing else.", "quantifier": "all histories of a controller, all cuts into held and sent events, all stores", "why_tests_cant": "all sequences of operations", "anchors": ["sample/keri/kmi/event.rs:incept", "sample/keri/kmi/event.rs:rotate", "sample/keri/kmi/event.rs:interact", "sample/keri/mod.rs:sign", "sample/keri/kmi/verification.rs:verify_key_event", "sample/keri/parsing.rs:ingest_messages"]}
{"id": "C71", "title": "Builders refuse inconsistent arguments", "statement": "incept and rotate return an error instead of an event when witnesses repeat, when added witnesses are there or are cut, when cut witnesses are not there, when the witness threshold is not from one to the number of witnesses (zero without), when the threshold is zero or more than the keys, or when the threshold for the next keys is; they never panic.", "quantifier": "all arguments", "why_tests_cant": "all lists and numbers", "anchors": ["sample/keri/kmi/event.rs:incept", "sample/keri/kmi/event.rs:rotate"]}
{"id": "C72", "title": "Strangers cannot crash a verifier", "statement": "No stream of messages makes ingest_messages panic.", "quantifier": "all streams, all stores", "why_tests_cant": "all adversarial streams", "anchors": ["sample/keri/parsing.rs:ingest_messages", "sample/keri/kmi/verification.rs:verify_key_event"]}
{"id": "C73", "title": "The default witness threshold suits agreement", "statement": "The witness threshold chosen for n witnesses, of which less than a third may fail, is such that any two sets of so many witnesses share one that does not fail, and such that the witnesses that do not fail are enough to reach it.", "quantifier": "all numbers of witnesses", "why_tests_cant": "all n", "anchors": ["sample/keri/kmi/event.rs:ample", "sample/keri/kmi/event.rs:incept", "sample/keri/kmi/event.rs:rotate"]}
{"id": "C74", "title": "Every identifier the library creates can be verified", "statement": "Every inception event the library builds, signed with its keys, is accepted by a verifier that does not know the identifier.", "quantifier": "all arguments of incept", "why_tests_cant": "all arguments", "anchors": ["sample/keri/kmi/event.rs:incept", "sample/keri/kmi/verification.rs:verify_key_event"]}
{"id": "C75", "title": "Built registries are accepted", "statement": "The inception of a registry that the library builds has exactly its fields, an identifier that is its SAID and the digest of its content, and names the issuer; an issuer has one registry and two issuers do not share one (unless their inceptions are different texts with the same digest); the interaction built to anchor it seals it; and a verifier that has that key event accepts and stores it and changes nothing else.", "quantifier": "all issuers, all stores", "why_tests_cant": "all issuers and stores", "anchors": ["sample/keri/acdc/tel/management.rs:incept", "sample/keri/acdc/tel/verification.rs:verify_transaction_event"]}
{"id": "C76", "title": "Built issuances and revocations are accepted", "statement": "An issuance or revocation that the library builds has exactly its fields with the credential, the registry, the time and the prior event in them and a SAID that is the digest of its content; a verifier that has the registry, the key event that seals it and, for a revocation, the issuance, accepts and stores it and changes nothing else.", "quantifier": "all credentials, registries, stores", "why_tests_cant": "all credentials and stores", "anchors": ["sample/keri/acdc/tel/vc.rs:issue", "sample/keri/acdc/tel/vc.rs:revoke", "sample/keri/acdc/tel/verification.rs:verify_transaction_event"]}
{"id": "C77", "title": "Built credentials are well formed and accepted", "statement": "A credential that the library builds has exactly the fields asked for in order, with issuer, registry, schema, edges, rules and data in them, SAIDs of the credential and of its subject that are digests of their content, and is read back from its bytes; a verifier that has the log of the issuer, the registry and the sealed issuance accepts the credential with the proof of the issuer and stores it and changes nothing else.", "quantifier": "all data, issuers, registries, logs of the issuer, stores", "why_tests_cant": "all documents and histories", "anchors": ["sample/keri/acdc/event.rs:create", "sample/keri/acdc/verification.rs:verify_acdc", "sample/keri/parsing.rs:ingest_messages"]}
{"id": "C78", "title": "Credentials name their recipient", "statement": "The subject of a credential created for a recipient names that recipient, and one created for none names none.", "quantifier": "all data and recipients", "why_tests_cant": "all data", "anchors": ["sample/keri/acdc/event.rs:create"]}
{"id": "C79", "title": "Key management calls give the controller's history", "statement": "However incept, interact and rotate are called one after the other, each with what earlier calls returned, the messages they return are the events of one valid history of the controller in order, each followed by its signatures framed as attached material; and a verifier that knows nothing of the identifier and is sent these messages accepts and stores exactly them and changes nothing else.", "quantifier": "all sequences of calls, all arguments, all randomness, all stores", "why_tests_cant": "all sequences of operations", "anchors": ["sample/keri/kmi/mod.rs:incept", "sample/keri/kmi/mod.rs:rotate", "sample/keri/kmi/mod.rs:interact", "sample/keri/kmi/endorsement.rs:endorse_serder", "sample/keri/kmi/message.rs:messagize_serder", "sample/keri/mod.rs:sign"]}
{"id": "C80", "title": "Every identifier with next keys can be rotated", "statement": "For every identifier incept creates with next keys, a rotation to them that the library builds is accepted by verifiers that have the inception.", "quantifier": "all arguments of incept and rotate", "why_tests_cant": "all arguments and stores", "anchors": ["sample/keri/kmi/mod.rs:incept", "sample/keri/kmi/mod.rs:rotate", "sample/keri/kmi/verification.rs:verify_key_event"]}
{"id": "C81", "title": "Endorsements say who signed", "statement": "An endorsement by endorse_serder is, in order, the header that names the seal, exactly the controller signatures, exactly the witness signatures and exactly the unindexed signatures with the keys that made them, each group readable one element after the other; signatures by transferable keys are refused in the last two.", "quantifier": "all seals and signature lists", "why_tests_cant": "all lists of all lengths", "anchors": ["sample/keri/kmi/endorsement.rs:endorse_serder"]}
{"id": "C82", "title": "Issuing and revoking reach the verifier", "statement": "For documents that read back as written (no floats, nested at most 126 deep, under 4 GiB) and no source: issue_acdc returns the message of an interaction, of an issuance and of a credential with the SAID it returns, which has the issuer, registry, schema and data asked for; revoke_acdc returns the message of an interaction and of a revocation. Attached to them, element by element, are the place and SAID of the sealing event, and the proof of the issuer. A verifier that has the log of the issuer and the registry and is sent the messages in the order returned accepts and stores exactly them and changes nothing else.", "quantifier": "all histories of the issuer, all arguments, all randomness, all stores", "why_tests_cant": "all histories and documents", "anchors": ["sample/keri/acdc/mod.rs:issue_acdc", "sample/keri/acdc/mod.rs:revoke_acdc", "sample/keri/acdc/endorsement.rs:ratify_creder", "sample/keri/acdc/message.rs:messagize_creder", "sample/keri/parsing.rs:ingest_messages"]}
{"id": "C83", "title": "Numbers survive the JavaScript bindings", "statement": "A number or sequence number read from an object through the JavaScript bindings and given to a constructor of the bindings is the same number.", "quantifier": "all numbers below 2^128 and all objects", "why_tests_cant": "2^128 numbers", "anchors": ["wasm/src/util.rs:U128Wrapper", "wasm/src/primitives/number.rs:NumberWrapper", "wasm/src/primitives/seqner.rs:SeqnerWrapper", "wasm/src/primitives/serder.rs:SerderWrapper"]}
{"id": "C84", "title": "Documents survive the JavaScript bindings", "statement": "Through the JavaScript bindings documents go in and come out as JSON texts: the text of a document has the effect of the document, what the library returns as a document comes out as its text, a text that is no JSON gives an error, and the texts of a threshold rebuild it.", "quantifier": "all documents, events, thresholds and texts", "why_tests_cant": "all documents and texts", "anchors": ["wasm/src/util.rs:ValueWrapper", "wasm/src/primitives/saider.rs:SaiderWrapper", "wasm/src/primitives/serder.rs:SerderWrapper", "wasm/src/primitives/prefixer.rs:PrefixerWrapper", "wasm/src/primitives/tholder.rs:TholderWrapper"]}
{"id": "C85", "title": "A schema answers for the document its identifier names", "statement": "For schemas without a version field that read back as written: a schemer, whether made from a document or from bytes, has a document whose field $id is its SAID and whose digest, with that field blanked, is the SAID; made from a document it changes nothing but that field, made from bytes it has the document of the bytes; its bytes give the same schemer again. After any successful calls of Schemer::new in one process, in any order, each schemer's verdict on a JSON text is the verdict of its own document on it, unless two of the schemas cached have different digested texts with the same digest.", "quantifier": "all sequences of calls, all documents and bytes, all instances, all hash functions and schema libraries", "why_tests_cant": "all sequences of calls share one cache", "anchors": ["sample/keri/acdc/schemer.rs:Schemer", "sample/keri/acdc/schemer.rs:SchemaCache"]}
{"id": "C86", "title": "Credentials of unknown schemas are refused", "statement": "A verifier answers a credential with the verdict of its schema if it was primed, and refuses it otherwise; it does not crash.", "quantifier": "all sequences of schemas, all credentials, proofs and stores", "why_tests_cant": "all credentials a stranger can send", "anchors": ["sample/keri/acdc/schemer.rs:SchemerCache", "sample/keri/acdc/verification.rs:verify_acdc"]}
{"id": "C87", "title": "Deep verification trusts no stored event", "statement": "In a store of which nothing was verified, but where only events of an identifier are kept for it and none with the SAID of another: when deep verification accepts an event, the events kept before it are a valid key event log that it continues, unless some of these events are in a circle, each with the digest of the next in the text its SAID is a digest of.", "quantifier": "all stores, events, signatures and hash functions", "why_tests_cant": "all contents of the store", "anchors": ["sample/keri/kmi/verification.rs:verify_key_event"]}
{"id": "C88", "title": "Deep verification of a stream trusts no stored event", "statement": "When a stream of key events is taken in with deep verification by a store of which nothing was verified, but where only events of an identifier are kept for it and no SAID twice, every log that grows is a valid key event log from its beginning, unless some of the events sent or kept are in a circle of digests.", "quantifier": "all stores, all streams", "why_tests_cant": "all contents of the store and all streams", "anchors": ["sample/keri/parsing.rs:ingest_messages", "sample/keri/kmi/verification.rs:verify_key_event"]}
{"id": "C89", "title": "Deep verification refuses nothing that was verified", "statement": "In a store filled by verification, a key event is accepted by deep verification whenever it is accepted without, and with the same answer whether it is new.", "quantifier": "all reachable stores, all events", "why_tests_cant": "all histories", "anchors": ["sample/keri/kmi/verification.rs:verify_key_event", "sample/keri/parsing.rs:ingest_messages"]}
{"id": "C90", "title": "Keys in reserve give the controller's history", "statement": "However incept_partial, interact and rotate_partial are called one after the other with salts, each with what earlier calls returned and with the salt given before, and with at least as many keys in reserve as before, the messages they return are the events of one valid key event log in order, each followed by its signatures framed as attached material: interactions signed with the signing keys alone, rotations with the keys in reserve and the new signing keys. A verifier that knows nothing of the identifier and is sent them accepts and stores exactly them and changes nothing else. A rotation with fewer keys than are in reserve is refused.", "quantifier": "all sequences of calls, all arguments, salts, randomness and stores", "why_tests_cant": "all sequences of operations; the functions have no tests", "anchors": ["sample/keri/kmi/mod.rs:incept_partial", "sample/keri/kmi/mod.rs:rotate_partial", "sample/keri/kmi/mod.rs:interact", "sample/keri/mod.rs:generate_from_salt", "sample/keri/mod.rs:sign"]}
{"id": "C91", "title": "One salt gives different keys for different rotations", "statement": "The keys in reserve that are made from one salt for different rotations are different keys, and different salts give different keys.", "quantifier": "all salts, rotations, numbers of keys", "why_tests_cant": "all rotations and numbers of keys", "anchors": ["sample/keri/mod.rs:generate_from_salt", "sample/keri/kmi/mod.rs:incept_partial", "sample/keri/kmi/mod.rs:rotate_partial", "src/cesr/core/salter.rs:signers"]}
{"id": "C92", "title": "A verifier ends with the store of the issuer", "statement": "However an issuer calls incept, interact, rotate, registry creation, issue_acdc and revoke_acdc one after the other, passing on what the calls before returned and keeping what they return in its own store, the messages are what readers of the stream format expect; a verifier that knows nothing of the issuer and is sent them one by one in order accepts every one, and ends with exactly the key events, transaction events and credentials of the issuer's own store added to its own; one that starts with nothing ends with a store equal to the issuer's.", "quantifier": "all sequences of calls, all arguments, randomness and stores", "why_tests_cant": "all sequences of operations of an issuer", "anchors": ["sample/keri/kmi/mod.rs:incept", "sample/keri/kmi/mod.rs:rotate", "sample/keri/kmi/mod.rs:interact", "sample/keri/acdc/tel/management.rs:incept", "sample/keri/acdc/mod.rs:issue_acdc", "sample/keri/acdc/mod.rs:revoke_acdc", "sample/keri/parsing.rs:ingest_messages"]}
{"id": "C93", "title": "Credentials that rest on others reach the verifier", "statement": "However any number of issuers call incept, interact, rotate, registry creation, issue_acdc and revoke_acdc in any order, where a credential may name as its sources credentials of any of the issuers that are issued and not revoked at that time, all the way down, with the operator and the schema of each edge met: the messages are what readers of the stream format expect; a verifier that knows nothing of the issuers and is sent the messages one by one in order accepts every one, and ends with exactly what the issuers keep added to its own; one that starts with nothing ends with a store equal to theirs.", "quantifier": "all interleavings of calls of all issuers, all chains of credentials, all arguments, randomness and stores", "why_tests_cant": "all histories of several parties, chains of any length", "anchors": ["sample/keri/acdc/mod.rs:issue_acdc", "sample/keri/acdc/mod.rs:revoke_acdc", "sample/keri/acdc/verification.rs:verify_acdc", "sample/keri/kmi/mod.rs:incept", "sample/keri/kmi/mod.rs:rotate", "sample/keri/kmi/mod.rs:interact", "sample/keri/parsing.rs:ingest_messages"]}
{"id": "C94", "title": "Messages reach the verifier as text", "statement": "However one or more issuers use the library, a verifier that calls ingest_messages with the text of each message, one after the other, gets no error, whatever it is told to verify again, and ends with all that the issuers have and nothing else; for any parser of streams that takes a stream apart into its messages, and a parser that does is given.", "quantifier": "all sequences of calls of any number of issuers; all stores of verifiers that know nothing of them; all settings of deep, and of verify other than false; all parsers that read a message followed by the rest of the stream", "why_tests_cant": "The text a verifier receives has no boundaries between messages and attachments other than what the parser finds.", "anchors": ["sample/keri/parsing.rs: ingest_messages", "sample/keri/kmi/mod.rs", "sample/keri/acdc/mod.rs"]}
{"id": "C95", "title": "Any division into streams will do", "statement": "However one or more issuers use the library, a verifier that is sent their messages in order, in streams of any number of messages, in particular all in one, gets no error and ends with all that the issuers have and nothing else, whatever it is told to verify again; provided that it knows nothing of the issuers and keeps nothing with the SAID of one of the messages, and that no two of the messages have different digested texts with the same digest.", "quantifier": "all sequences of calls of any number of issuers; all divisions of the messages into streams; all stores of verifiers; all settings of deep, and of verify other than false", "why_tests_cant": "within one stream the verifier skips documents it has met, so what it does with a message depends on all that came before", "anchors": ["sample/keri/parsing.rs: ingest_messages", "sample/keri/kmi/verification.rs:verify_key_event", "sample/keri/acdc/tel/verification.rs:verify_transaction_event", "sample/keri/acdc/verification.rs:verify_acdc"]}
{"id": "C96", "title": "Messages of others do not keep one's own out", "statement": "A verifier that accepts a stream of messages of others, and knows nothing of some issuers, accepts the same stream followed by the messages of these issuers, and ends with all that the issuers have and nothing else changed. The order in which sessions of issuers that do not know each other are sent, and the division into streams, do not matter.", "quantifier": "all streams of others that the verifier accepts; all sequences of calls of any number of issuers; all stores reachable by accepting messages; all divisions into streams", "why_tests_cant": "a hostile sender chooses what precedes the messages, and the verifier skips what it believes it has met; no list of test streams covers what can precede", "anchors": ["sample/keri/parsing.rs: ingest_messages", "sample/keri/kmi/verification.rs:verify_key_event", "sample/keri/acdc/tel/verification.rs:verify_transaction_event", "sample/keri/acdc/verification.rs:verify_acdc"]}
{"id": "C97", "title": "Thresholds of credentials count signers", "statement": "A credential that a verifier keeps was signed by enough different keys of the key event its proof names: with weights, the positions of different keys that signed have enough weight; with a number, at least that many different keys signed.", "quantifier": "all streams of messages, all proofs with any number of signatures in any order and of any kind, all thresholds", "why_tests_cant": "the sender of a credential chooses the list of signatures, and may send one more than once and in different forms; tests send each signature once", "anchors": ["sample/keri/acdc/verification.rs:verify_acdc", "src/cesr/core/siger.rs", "src/cesr/core/tholder.rs:satisfy"]}
{"id": "C98", "title": "Witness thresholds are enforced", "statement": "An event that names witnesses and a threshold of them is kept only if at least that many of its witnesses signed it, and an event with enough signatures of its witnesses is not refused because of them.", "quantifier": "all events with any witnesses and thresholds, all attached material, all verifiers and histories", "why_tests_cant": "an event without the signatures of its witnesses is accepted just as one with them in tests that only send good events", "anchors": ["sample/keri/kmi/verification.rs:verify_key_event", "sample/keri/kmi/event.rs:incept", "sample/keri/parsing.rs:ingest_messages"]}
{"id": "C99", "title": "Credentials rest on credentials in force", "statement": "When a verifier accepts a credential, every credential it rests on, through edges of edges however far, is stored, proven and neither revoked nor too old.", "quantifier": "all credentials, all chains and circles of edges of any length, all stores, all streams and options", "why_tests_cant": "the state of a credential far away in the chain matters, and what was met before in the stream is skipped; tests have chains of one or two credentials and no revocation in between", "anchors": ["sample/keri/acdc/verification.rs:verify_acdc", "sample/keri/parsing.rs:ingest_messages"]}
{"id": "C100", "title": "Deep verification of transaction events trusts no stored event", "statement": "In a store of which nothing was verified, but where only events of an identifier are kept for it and none with the SAID of another: when deep verification accepts the inception of a registry, an issuance or a revocation, the events kept before it for its identifier are a valid transaction log that it continues, each sealed in a key event log that is valid from its beginning, and so is the registry it names.", "quantifier": "all stores that may have been tampered with, all events", "why_tests_cant": "all tampered stores", "anchors": ["sample/keri/acdc/tel/verification.rs:verify_transaction_event", "sample/keri/verification.rs:verify_anchor"]}
{"id": "C101", "title": "Exactly JSON is read", "statement": "A text is read as a document if and only if it is JSON (RFC 8259) with arrays and objects nested at most 127 deep, and it is read as the one document it means, however it is spaced, its strings are escaped and its keys are repeated; any other text gives an error.", "quantifier": "all texts and documents", "why_tests_cant": "infinitely many texts", "anchors": ["src/data.rs:Value", "src/core/common.rs:loads"]}
{"id": "C102", "title": "Streams taken in side by side", "statement": "However many calls of ingest_messages are under way on one store at a time (several handles onto one database), however they take turns, and wherever they fail or are killed, the key event logs and transaction logs in the store are valid, made of what was received, and every credential in it is proven by what is stored before it.", "quantifier": "all numbers of calls, streams, options and schedules", "why_tests_cant": "schedules are unbounded in number and length; a test sees one", "anchors": ["sample/keri/parsing.rs:ingest_messages", "sample/keri/mod.rs:KeriStore"]}
{"id": "C103", "title": "Random keys are what was asked for", "statement": "Creating random keys gives as many as codes are given, or as the count says, with these codes in order, each from a draw of its own, with the public key of the requested kind and signatures that verify; it panics exactly when a code that is asked for is not the code of a seed.", "quantifier": "all lists of codes, counts, codes, kinds of keys and random sources", "why_tests_cant": "the random source and the lists are unbounded", "anchors": ["src/signify/creating.rs:RandyCreator"]}
{"id": "C104", "title": "Only its controller can give an identifier two histories", "statement": "The logs that two verifiers have of an identifier, whatever each was sent, agree as far as both go, or up to a place after the inception where each goes on with an event that is signed as the latest establishment event of their common past demands; so as long as the keys of an identifier, current and committed to, sign the events of one history only, every verifier has an initial part of that history. Unless digests collide.", "quantifier": "all verifiers, histories of streams and logs whose documents have the version string first and decimal numbers", "why_tests_cant": "all streams anyone may send, to any number of verifiers", "anchors": ["sample/keri/parsing.rs:ingest_messages", "sample/keri/kmi/verification.rs:verify_key_event"]}
{"id": "C105", "title": "Keys in force alone do not put other keys in force", "statement": "As long as of the rotations a verifier receives those signed by a key that the controller's own log committed to are rotations of that log, the verifier's log is an initial part of the controller's followed by interactions only: one who has got hold of all the keys in force, and of none of those committed to, can at most add interactions. In particular a verifier that receives no rotation signed by a key that the establishment event in force committed to keeps that event in force. Unless digests collide.", "quantifier": "all verifiers, all streams anyone with the current keys may send in any order, all logs whose documents have the version string first and decimal numbers", "why_tests_cant": "all adversaries with the current keys, all streams", "anchors": ["sample/keri/parsing.rs:ingest_messages", "sample/keri/kmi/verification.rs:verify_key_event"]}
{"id": "C106", "title": "Nothing is anchored or signed in a controller's name", "statement": "As long as the keys of a controller sign the events of one history only, every registry, issuance and revocation that any verifier keeps under the controller, whatever it was sent, is sealed by an event of that history, and every credential any verifier keeps with a root proof that names the controller is signed, as one event of that history demands, by keys of that event. Unless digests collide.", "quantifier": "all verifiers, histories of streams, stores, registries, credentials and proofs", "why_tests_cant": "all streams anyone may send, to any verifier", "anchors": ["sample/keri/parsing.rs:ingest_messages", "sample/keri/acdc/tel/verification.rs:verify_transaction_event", "sample/keri/acdc/verification.rs:verify_acdc"]}
{"id": "C107", "title": "Verifiers do not disagree about credentials", "statement": "As long as the keys of a controller sign the events of one history, which never seals two transaction events with one identifier and number, any two verifiers have the same issuances and revocations under registries of the controller at the places both have: one may know less, but they do not disagree. And verifiers agree about who controls a registry.", "quantifier": "all pairs of verifiers, all streams each may be sent, all registries and credentials", "why_tests_cant": "all pairs of histories of streams", "anchors": ["sample/keri/parsing.rs:ingest_messages", "sample/keri/acdc/tel/verification.rs:verify_transaction_event"]}
{"id": "C108", "title": "Deep verification only refuses more", "statement": "Whatever is kept in a store: a key event, a transaction event or a credential that is accepted with deep verification, or with the choice left out, is also accepted without deep verification, with the same answer whether it is known; and so is a stream. To leave the choice out is to choose one of the two.", "quantifier": "all stores, whether verified or not, all events, credentials and attachments, all sets of SAIDs met before", "why_tests_cant": "all contents of a store", "anchors": ["sample/keri/kmi/verification.rs:verify_key_event", "sample/keri/acdc/tel/verification.rs:verify_transaction_event", "sample/keri/acdc/verification.rs:verify_acdc", "sample/keri/verification.rs:verify_anchor", "sample/keri/parsing.rs:ingest_messages"]}
{"id": "C109", "title": "Documents are the maps they are made from", "statement": "A document made from a map has exactly the entries of the map, in whatever order the map gives them, and the same SAID each time. A value written under a key or at a place of a document is read there, and everything else is read as before.", "quantifier": "all maps, all orders in which a map may give its entries, all documents, keys, places and values", "why_tests_cant": "the order in which a hash map gives its entries varies from run to run", "anchors": ["src/data.rs:From<&HashMap>", "src/data.rs:From<&IndexMap>", "src/data.rs:Index", "src/data.rs:IndexMut"]}
{"id": "C110", "title": "Signatures count as what their codes say", "statement": "A signature counts only for a key of the kind that its code names, and a signature whose code says that it is meant for the keys of the event only does not count as one by a key that an earlier event committed to.", "quantifier": "all events, all signatures and codes", "why_tests_cant": "all attachments", "anchors": ["sample/keri/kmi/verification.rs:verify_key_event", "src/cesr/core/verfer.rs:verify"]}
{"id": "C111", "title": "Next keys may be committed to with any digest", "statement": "An identifier may list the digests of its next keys with any of the digest codes the library has, and can then be rotated to those keys.", "quantifier": "all reachable stores, all digest codes, all logs", "why_tests_cant": "all histories", "anchors": ["sample/keri/kmi/verification.rs:verify_key_event", "src/cesr/core/diger.rs:Diger::new", "sample/keri/kmi/event.rs:incept"]}
{"id": "C112", "title": "Digest codes name their algorithms", "statement": "A digest made with a code is the digest by the algorithm that CESR gives to that code, with all its bytes; without a code it is a Blake3-256 digest, and for any other code there is none. The Blake3-256 digest of a text is the first half of its Blake3-512 digest.", "quantifier": "all texts, all codes, all hash crates with outputs of the right size", "why_tests_cant": "all byte strings", "anchors": ["src/cesr/crypto/hash.rs:digest", "src/cesr/core/diger.rs:Diger::new"]}
{"id": "C113", "title": "Generated Ed25519 keys are not weak", "statement": "Key generation returns the first private key that the random generator gives whose public key is not weak, and returns whenever there is one.", "quantifier": "all sequences the random generator can give", "why_tests_cant": "all random sequences; weak keys have negligible probability, so tests never see one", "anchors": ["src/cesr/crypto/sign.rs:ed25519::generate"]}
{"id": "C114", "title": "Keys for rotations may be kept elsewhere, but the digests must be given", "statement": "When incept_partial and rotate_partial are given the digests, and later the keys, of key sets kept elsewhere, and their holder adds signatures to each rotation, all messages form one valid history and every verifier accepts them. When the keys themselves are given to incept_partial as next keys the call succeeds, and no verifier that has the inception ever has a rotation of the identifier.", "quantifier": "all sequences of calls, key sets, thresholds, verifiers and their histories", "why_tests_cant": "all histories of calls and of verifiers; that an identifier can never be rotated is a statement about every future message", "anchors": ["sample/keri/kmi/mod.rs:incept_partial", "sample/keri/kmi/mod.rs:rotate_partial"]}
{"id": "C115", "title": "Rounding of floats does not matter to Base64 integers", "statement": "For every number that fits into the number of characters asked for, u32_to_b64 and u64_to_b64 return that many Base64 characters, which read back as the number, however f32 arithmetic rounds and whatever the precision of its logarithm, as long as both keep the order of numbers and are exact on powers of two and small integers.", "quantifier": "all numbers, lengths and roundings", "why_tests_cant": "all 64-bit numbers and all arithmetics; the precision of log2 is not specified and differs between platforms", "anchors": ["src/cesr/core/util.rs:u32_to_b64", "src/cesr/core/util.rs:u64_to_b64"]}
{"id": "C116", "title": "Converting a number of a document keeps it or is refused", "statement": "For every number in a document, each of to_i64, to_f64, i64::try_from and f64::try_from returns the very number or an error, and an integer converted to a float and back is the integer it was.", "quantifier": "all integers of 64 bits and all floats, infinite ones and those that are not numbers included", "why_tests_cant": "there are 2^64 integers and as many floats; rounding shows only beyond 53 bits", "anchors": ["src/data.rs:Number", "src/data.rs:Value::to_i64", "src/data.rs:Value::to_f64", "src/data.rs:TryFrom<&Value> for i64", "src/data.rs:TryFrom<&Value> for f64"]}
{"id": "C117", "title": "Issuing refuses what no verifier would accept", "statement": "issue_acdc returns messages only if the registry it is told exists and is the issuer's, the sources exist and the credential fits its schema, so that whoever has the issuer's other messages accepts what it returns.", "quantifier": "all stores, issuers, registries, data, sources and schemas", "why_tests_cant": "all stores and arguments; a unit test issues under the registry it made before", "anchors": ["sample/keri/acdc/mod.rs:issue_acdc", "sample/keri/acdc/tel/verification.rs:verify_transaction_event"]}
{"id": "C118", "title": "Verification always ends", "statement": "Whatever a verifier has received before and whatever stream comes in now, with or without deep verification, ingest_messages comes to an end: no stream, no matter how its events, seals and credentials point to each other, makes verification call itself without end, and verifying a key event makes at most one nested call for each event kept for its identifier.", "quantifier": "all histories of ingestion, including interrupted ones, all streams, all values of deep and verify", "why_tests_cant": "all histories and streams, in particular ones made to point in circles; no test can show that there is none", "anchors": ["sample/keri/parsing.rs:ingest_messages", "sample/keri/kmi/verification.rs:verify_key_event", "sample/keri/acdc/tel/verification.rs:verify_transaction_event", "sample/keri/acdc/verification.rs:verify_acdc"]}
{"id": "C119", "title": "One key event can seal several transaction events", "statement": "A controller may seal any number of registry inceptions, issuances and revocations in one key event: each of them is accepted with a couple that names that key event, if one of its seals names the transaction event.", "quantifier": "all stores, transaction events, couples, key events with any seals, all depths", "why_tests_cant": "all seals and stores; a unit test seals one event at a time", "anchors": ["sample/keri/verification.rs:verify_anchor", "sample/keri/acdc/tel/verification.rs:verify_transaction_event"]}
{"id": "C120", "title": "What is revoked no longer counts", "statement": "After a verifier has accepted the revocation of a credential or of a registry, it does not accept the credential, or credentials issued in the registry after that, any more.", "quantifier": "all stores and histories, credentials, registries, proofs and depths", "why_tests_cant": "all histories and credentials; a unit test revokes one credential", "anchors": ["sample/keri/acdc/verification.rs:verify_acdc", "sample/keri/acdc/tel/verification.rs:verify_transaction_event", "sample/keri/acdc/mod.rs:revoke_acdc"]}
{"id": "C121", "title": "Anchors are named by their own numbers", "statement": "The sequence number with which a transaction event or the proof of a credential names a key event is the number of that key event, whenever the verifier accepts it.", "quantifier": "all reachable stores, transaction events, credentials, couples, proofs and depths", "why_tests_cant": "numbers up to 2^128, and all logs; a unit test names the few first events", "anchors": ["sample/keri/verification.rs:verify_anchor", "sample/keri/acdc/verification.rs:verify_acdc", "sample/keri/acdc/tel/verification.rs:verify_transaction_event"]}
{"id": "C122", "title": "Codes have their names in JavaScript", "statement": "Every code that the library reads and writes has a name in the JavaScript bindings, each name there gives the code that the library's constant of the same name has, and different names give different codes.", "quantifier": "all codes of primitives and of indexed signatures, all names", "why_tests_cant": "all names and codes; a unit test looks at a few", "anchors": ["wasm/src/primitives/codex.rs:matter_codex_code", "wasm/src/primitives/codex.rs:indexer_codex_code", "src/cesr/core/matter/tables.rs:Codex", "src/cesr/core/indexer/tables.rs:Codex"]}
{"id": "C123", "title": "Dates do not stand in the way", "statement": "Whenever in the years 0 to 9999 a transaction event is dated by the library, a verifier can read the date, as the time that the clock showed, and does not find it too old for a thousand years; from 1143 years on it does. No date makes the verifier panic. The current time as a primitive reads back as the text of the clock.", "quantifier": "all dates and times of the years 0 to 9999, all times of verification, all texts given as dates", "why_tests_cant": "all dates, among them leap days, ends of months and fractions of any length; a unit test looks at a few", "anchors": ["sample/keri/acdc/verification.rs:verify_acdc", "sample/keri/acdc/tel/vc.rs:issue", "sample/keri/acdc/tel/vc.rs:revoke", "src/cesr/core/dater.rs:now_as_iso8601"]}
{"id": "C124", "title": "Documents can be printed for people", "statement": "Every document can be printed with indentation: the text has a line for every field and element, two spaces further in for every level, is JSON for the same document, and is cut after the number of bytes asked for, 1024 if nothing is said. Printing never fails and never panics.", "quantifier": "all documents made or read by the library, all sizes", "why_tests_cant": "all contents and all places of the cut, among them characters of several bytes; the unit test prints one ASCII document", "anchors": ["src/cesr/core/sadder.rs:pretty"]}
{"id": "C125", "title": "Private credentials are blinded", "statement": "A credential that is made private without a salt has in u a salt of the 16 random bytes drawn for it, and its subject has in u a salt of 16 others, whatever the data is. So private credentials, and their subjects, differ whenever different bytes were drawn, even if they say the same. A credential that is not private has no u.", "quantifier": "all data, recipients, registries, edges and rules, all bytes the random generator can give", "why_tests_cant": "all random bytes and all data, among them data with fields of the same names", "anchors": ["sample/keri/acdc/event.rs:create", "src/cesr/core/salter.rs:new_with_defaults"]}
