# Formal model of WebOfTrust/keride in Lean 4

The model lives in `lean/Verif/`. Each definition cites the file and lines of `/repo` it models.
`properties.jsonl` lists the properties, `MANIFEST.json` maps them to theorems, `seeded/LOG.jsonl`
records edits of the model that the theorems were tested against.

| directory | content |
|-----------|---------|
| `Verif/Model` | the code, function by function; `Model/Sample` is `/repo/sample/keri` |
| `Verif/Spec` | the small specifications the theorems are stated with; they do not use the helpers of the proofs |
| `Verif/Lemmas` | proofs about the model; `World*.lean` hold a small world that can be evaluated, for the examples |
| `Verif/Props` | one theorem per claim, `Cnn_...`, each with an `example` meeting its hypotheses |

Names: `Cnn_x` is a part of property Cnn; `Cnn_..._partial` proves only part of it and says what is
missing; `Cnn_..._false` proves, with a concrete witness, that the code does not have the property.

## 1. Trusted base

* Lean 4.33.0's kernel, and Mathlib as far as imported (checked by the same kernel).
* Axioms: each theorem depends on a subset of `propext`, `Classical.choice`, `Quot.sound`. No axiom
  of our own, no `sorry`, no `native_decide`, no `bv_decide`. `decide +kernel` is used on complete
  finite tables and to evaluate concrete witnesses; it is checked by the kernel.
* The reading of the Rust code. The code is not run here; the tie is the citation on each definition.
* The semantics given to Rust:
  * `Result` is `Res.ok / Res.err`; a panic is the third value `Res.panic`. Memory exhaustion is not
    modelled, and there is no `unsafe` in the modelled code.
  * Error values keep the variant of `crate::error::Error` and drop the message text.
  * Integers are naturals with the truncation (`as`), shift and overflow behaviour written out where
    reachable. Overflow in `+ - * pow` depends on the build profile: the Boolean parameter `chk` is
    `true` for overflow checks (debug), `false` for wrapping (release). Theorems hold for both values
    unless they are about one. `usize` has 64 bits; lengths of Rust objects are unbounded naturals,
    except that `as u32` truncations are kept.
  * `&str` is a list of Unicode scalar values; its slices are by UTF-8 byte offset and panic off a
    character boundary or out of range, as in Rust.
  * Recursive verification in `sample/keri` carries `fuel` for termination; running out of fuel is
    `Res.panic`, as a stack overflow would be. All theorems hold for every amount of fuel;
    C118 shows that from every reachable store some amount suffices for any stream.
* The semantics given to dependencies:
  * `base64` 0.21 `URL_SAFE`: RFC 4648, padding required, trailing bits required to be zero.
  * `serde_json`: the reader is written out (`Model/Json.lean`): a later duplicate of a key replaces the
    value and keeps its place (as with `preserve_order`), the depth limit is 127; printing of floats is a
    parameter `fl` (what text the float read from a text prints as).
  * `indexmap`: a list of pairs in insertion order. `num-rational` `Ratio<u32>`: written out with its
    overflow behaviour. `regex` for version strings: written out as a scanner.
  * `u32_to_b64` compares an `f32` logarithm with the length. The model has the exact comparison
    `n <= 64^(length + j)` in its place. This is an idealisation: rounding of the float is not
    modelled. It matters only for arguments that do not fit in `length` characters, since otherwise the
    comparison holds from the start (C115, for every rounding that keeps the order of numbers); the codecs call it only with arguments that fit.
  * hash functions, signature schemes and argon2 are parameters. The laws used are explicit
    hypotheses: `HashOk` (digests have their table length), `CryptoOk` (what `sign` produced,
    `verify` accepts). No law of unforgeability or collision resistance is assumed: theorems about
    tampering return the colliding pair. As every function to digests of a fixed length has collisions
    somewhere, the pair is named: the two texts are among those digested to check the documents of the
    statement (`Draft`, `EventText`, `LogText`, `MessageText`, `SchemaText`), and a circle of digests
    (`Circular`) is one of the events of the statement.
  * `sample/keri` uses the stream parser `parside`, the JSON schema library, the clock and a database
    behind the trait `KeriStore`, which `/repo` does not implement. The parser, the schema verdict and the
    clock are parameters (`Sample.Env`). The store is modelled by the contents its method names promise:
    for each identifier the texts inserted for it, in order. `get_sad` is a parameter; `Remembers` is the law
    that it finds what is stored. Insertions may be refused (`refuses`).
    What parside is trusted for is `ReadsStreams` (C94): a stream that starts with a message, or with what is attached to one, is
    read as that and what the rest is read as. `readStream` (`Spec/Reader.lean`) is a parser that meets it; theorems that speak of
    one message at a time take what it is read as for their argument. Signatures that a parser returns carry no verification key
    (`FromText`), and those of a history need only agree in what is transmitted (`MadeBy`).
  * `sort` is insertion sort, `dedup` on a sorted list is `eraseDups`; both have the same results.

## 2. What is modelled and what is not

Modelled: `src/cesr/core` (`util`, `matter`, `indexer`, `counter`, `number`, `seqner`, `dater`, `bexter`, `tholder`,
`common`, `saider`, `sadder`, `serder`, `creder`, `diger`, `verfer`, `siger`, `cigar`, `salter`), `src/pathing/pather.rs`,
`src/prefexing/prefixer.rs`, `src/signing/signer.rs`, `src/signify/creating.rs`, `src/data.rs`,
`src/messaging.rs`, `src/receipting.rs`, `src/seal.rs`; in `sample/keri`: `parsing`, `verification`,
`kmi/{mod,event,verification,endorsement,message}`, `acdc/{mod,event,verification,endorsement,message,schemer}`,
`acdc/tel/{management,vc,verification}`, `labels`, and the trait of `mod.rs`.

In `/repo/wasm`: what the wrappers of numbers, documents and thresholds add to the functions they call (`Model/Wasm.lean`), and the names of codes (`Model/WasmCodex.lean`).

Not modelled: the other wrappers of `/repo/wasm` (they pass arguments on in order), `src/cesr/crypto/*` (abstract, but for the choice of algorithms by code, the loop that generates Ed25519 keys and
the parameters of the tiers: C112, C113, C45),
the JSON schema library, forms of dates that chrono reads beside those of RFC 3339, error message texts, `Debug`/`Default` instances,
CBOR and MGPK (the code has no implementation). Concurrent calls of `ingest_messages` on one store are modelled as calls that
take turns between messages (`Spec/Together.lean`, C102); the reads within the check of one message are one step.

## 3. Per property: what is modelled and how it is proved

| id | model | proof |
|----|-------|-------|
| C01 | `util.rs` integer/Base64 loops | positional-notation lemmas by induction on the length |
| C02 | `code_b64_to_b2`, `code_b2_to_b64`, `nab_sextets` | number = sextets = bytes identity |
| C03-C08 | `Matter::{new,infil,binfil,exfil,bexfil,full_size}` with code tables | both encodings equal one number `value(code)*64^k+value(lead ++ raw)`; tables by `decide` over the whole table |
| C09 | same | text form is false (`=` is accepted inside the body): witness and `_partial`; binary form in full |
| C10 | same | every prefix gives `err`, by case analysis on the cut position |
| C11 | same | false (witnesses); exact characterisation of the panicking inputs |
| C12 | `Matter::new` | case analysis |
| C13, C14 | `Matter::new_with_code_and_raw` | arithmetic |
| C15 | `transferable`, `digestive` | `transferable` is false of the code for `1AAI`: witness and partial |
| C16-C19, C49 | `Indexer` | as Matter. Some codes lose `ondex` or panic in `qb2()`: witnesses and partial. Which texts panic: exactly those with a character across the end of a part of the primitive (Spec/Sigs.lean, Lemmas/IndexerPanic.lean) |
| C20-C22, C48 | `Counter` | as Matter |
| C23-C25, C50 | `Number`, `Seqner` | on top of Matter |
| C26 | `Dater` | on top of Matter |
| C27 | `Bexter` | false when length % 4 = 0 and first char is `A`: witness, exact iff |
| C28-C33, C51 | `Tholder` | exact rationals; several are false of the code (duplicates, empty list, index out of range, overflow): witness and partial; the inputs on which the constructors panic (Props/Limen) |
| C34-C36 | `common.rs` | string lemmas; JSON serialiser of `data.rs` |
| C37, C38 | `Saider` | abstract hash; JSON serialiser |
| C39, C40, C52 | `Sadder`, `Serder`, `Creder` | false of the code: witnesses, plus what does hold |
| C41, C42 | `Diger`, `Signer`, `Verfer` | abstract crypto |
| C43 | `Prefixer` | abstract crypto |
| C44 | wrappers | case analysis; false for `Number`, `Salter`, `Prefixer` via qb64 |
| C45 | `SaltyCreator`, `Salter` | false: path collision and ignored tier witnesses; partial |
| C46 | `Pather` | path algebra; resolution of any path is the relation `Resolves`; `strip` witness |
| C47 | `data.rs` `to_json` and a JSON reader | structural induction |
| C53, C54, C55 | `messaging.rs`, `receipting.rs`, `seal.rs`, `receipt` of `kmi/message.rs`, accessors of `Serder`/`Creder` | the message is a concatenation of self-framing elements |
| C56 | `parsing.rs`, `kmi/verification.rs` | invariant of the store over all reachable histories (`Reach`: any streams, outcomes and kill points) |
| C57 | same | two valid logs with a common SAID agree backwards by induction, or two of their events have different digested texts with the same digest |
| C58 | same, `Tholder::satisfy` | the signed indices as a set; false for numeric thresholds: one key signing twice |
| C59, C60 | `parsing.rs` | induction on the messages |
| C61 | same | a message taken in is known, so it is taken in again without effect; by induction on the stream; stored events stand where their numbers say, so deep verification finds them again (Lemmas/Replay); false once a credential is revoked: witness |
| C62, C63 | `acdc/tel/verification.rs`, `verification.rs` | invariant over all histories, on top of C56 |
| C64, C65 | same | false of the code: witness streams (a foreign revocation, an odd registry); partial from C62 |
| C66, C67 | `acdc/verification.rs` | invariant over all histories: each credential is proven by what was stored before it |
| C68 | same | false of the code: a forged credential; partial from C66 and C62 |
| C69, C71, C73 | `kmi/event.rs` | inversion of the builders, for inceptions under a digest, under a key and delegated; `saidify` and `new_with_ked` give a document that verifies and reads back |
| C70, C74 | `kmi/event.rs`, `KeySet` of `mod.rs`, C56's model | invariant `Sound` over the histories of a controller: every cut of its log is accepted by a verifier holding the part before; induction on the messages sent |
| C72 | `parsing.rs`, `kmi/verification.rs`, `acdc/tel/verification.rs`, `acdc/verification.rs` | false of the code: witness streams, one for each way to panic; a small specification of what a message must avoid (`Spec/Fair.lean`), and each function in turn does not panic on it; invariant: what is stored is fair; the recursion of deep verification ends because the SAIDs not yet met become fewer |
| C75, C76 | `acdc/tel/management.rs`, `acdc/tel/vc.rs`, C62's model | inversion of the builders; the checks of `verify_transaction_event` one by one for what was built |
| C77, C78 | `acdc/event.rs`, C66's model, C70's histories | the same, with the invariant of C70 for the issuer's log; C78 is false of the code: witness data |
| C79, C80 | `kmi/mod.rs`, `kmi/endorsement.rs`, `kmi/message.rs` | induction on the calls of a session: the messages are a history in the sense of C70, with framed signatures; C80 is false for the next threshold 0: witness calls, and an argument over all histories that no rotation is ever stored |
| C81 | `kmi/endorsement.rs` | concatenation of self-framing elements as in C53; false for unindexed signatures: the keys are left out |
| C82 | `acdc/mod.rs`, `acdc/endorsement.rs`, `acdc/message.rs` | composition of C70, C75, C76 and C77; the texts attached are shown to be self-framing elements; sizes and plainness of built documents from the arguments |
| C83 | `wasm/src/util.rs`, number and sequence number wrappers | false from 2^64 on (the high half is not shifted): exact characterisation and partial |
| C84 | wrappers that take or return documents | composition with C47 and C32; false where `to_string` is used for `to_json`, for every input |
| C85 | `schemer.rs`: `Schemer`, `SchemaCache` | invariant over all sequences of calls: each compiled document is that of a schemer with its key; C38 for equal keys |
| C86 | `schemer.rs`: `SchemerCache`; `verify_acdc` | false: `map()[said]` panics, for every credential accepted elsewhere; partial for primed schemas |
| C87 | `verify_key_event` with `deep`, over any store | induction over the recursion: the SAIDs under verification lead, by prior events, to the event at hand (or these events are a circle of digests), so a valid log is built from the inception up |
| C88 | `ingest_messages` with `deep`, over any store | false: a known event marks its SAID as verified, and a forged event under the same SAID is then trusted; partial by an invariant of the loop for streams of new events |
| C89 | `verify_key_event` with `deep`, over reached stores | invariant of all streams: every stored event would be accepted again; induction over the log |
| C90 | `kmi/mod.rs`: `incept_partial`, `rotate_partial`, `interact` | induction on the calls: the latest establishment event lists keys without weight and the signing keys with equal shares, and pledges the keys the salt is stretched to next; exact weights from C29; a rotation with fewer keys has too little weight |
| C91 | `KeySet::generate_from_salt`, same functions | false: path collision, for every salt; partial for one hexadecimal digit, by injectivity of the path |
| C92 | `kmi/mod.rs`, `acdc/mod.rs`, `acdc/tel/management.rs`, `parsing.rs` | induction on the calls of an issuer (`Office`), from the lemmas behind C75, C79 and C82; a verifier is related to the issuer's store after every call (`Joined`) |
| C93 | `acdc/mod.rs`, `acdc/verification.rs`, `kmi/mod.rs`, `parsing.rs` | induction on the calls of several issuers (`Market`); what was true of a credential when it was issued (`Vouched`) stays enough for verification when logs and credentials grow (`Vouched.more`); induction on the chain a credential rests on (`Standing`) bounds the depth of recursion |
| C94 | `parsing.rs`, and a reader of streams (`Spec/Reader.lean`) in place of the crate parside | the texts that the library makes are a JSON object and one counted group (`Document`, `Piece.Wellformed`), so the reader finds where each ends, whatever follows; with C92 and C93 |
| C95 | `parsing.rs`, `ingest_messages` with the set of SAIDs met in a stream | every message is accepted in the middle of any stream unless its SAID was met (`Accepts`, `Flows`); the messages of issuers report different SAIDs or collide, by induction on the calls (`Mark`, `Told`) |
| C96 | `ingest_messages` on a stream whose first part is of others: what is met in it and what is stored | a verifier meets, or keeps, only what took a place in a log (`Placed`, `held_placed`, by the invariants of C19, C20, C21); two places that report the same SAID are the same or collide (`Placed.same`); `C96_false` by evaluating the model with the reader on the oddly built registry of C21 |
| C97 | `acdc/verification.rs`, the removal of repeated signatures and `Tholder::satisfy` | the signatures that are counted are a sublist of those received without repetitions (`proof_signed`, from C66); `C97_false` by evaluating the model on a credential of an issuer with two keys |
| C98 | `kmi/verification.rs`, the groups that are accepted; `parsing.rs` | along `Reach`: what was accepted came with groups of controllers only (`checked_controller`); each verifier refuses another kind of group before it stores anything; `C98_false` by evaluating the model |
| C99 | `acdc/verification.rs`, the edges and the set of SAIDs met | deep verification is a search of the graph of edges: by induction on the recursion, the set grows by events and by credentials that are proven, in force, and whose edges lead into the set (`deep_met`); then by induction on the chain; for streams, an invariant of the set and the store (`MetSince`); that no event has the SAID of a credential follows from what is stored being addressed by its content (`apart_of`); `C99_false` and `C99_shallow_false` by evaluating the model |
| C100 | `acdc/tel/verification.rs`, `verification.rs::verify_anchor` | as C87: by induction on the sequence number the stored predecessors are verified again (`deepTel_valid`), and their anchors in logs that C87 shows valid; `C100_false` gives a store with a forged registry |
| C101 | the JSON reader of `Model/Json.lean`, `data.rs` `From<&JsonValue>` | the grammar is an inductive relation (`Spec/JsonText.lean`); soundness by induction on the reader's steps (`parse_sound`), completeness by induction on the length of the text (`parse_complete`) |
| C102 | `parsing.rs::ingest_messages`, several calls on one store | induction on the schedule (`together_induct`): every call keeps that what it has noted is stored, which others only make more true; the steps are those of C56, C62, C66. `C102_false` is a schedule evaluated in the model. `C102_guarded`: a message that was fit when it was checked is fit as long as the log it makes longer is the same, because all else only grows (`Fits.late`) |
| C103 | `signify/creating.rs::RandyCreator::create` | induction on the codes; each key by C42 |
| C104 | `parsing.rs::ingest_messages`, two verifiers | the logs are compared event by event (`compare_logs`); each event is allowed by the latest establishment event before it (from C56), which is the same in both (C57). For keys that sign one history: an allowed event has a signature by a key of the history, so its bytes are an event of it, and its number says which |
| C105 | `parsing.rs::ingest_messages`, `kmi/verification.rs::verify_key_event` | after the common part (C104) the first establishment event of the verifier is a rotation allowed by an establishment event of the common part, so signed by a key it committed to, so an event of the controller at the place of its number; the SAID of the event before it that it names makes the pasts equal (C57), against the fork |
| C106 | `tel/verification.rs`, `acdc/verification.rs`, many verifiers | C62 and C66 give the sealing or signing event in the verifier's log, C104 puts it into the controller's, C57 carries keys and seals over |
| C107 | `tel/verification.rs`, two verifiers | C106 for both; the seals decide the SAID, which decides the content; the identifier of a registry decides its content. The witness of the negation is evaluated in the kernel |
| C108 | `verify_key_event`, `verify_anchor`, `verify_transaction_event`, `verify_acdc` | each function follows the same steps without deep verification, and its answer does not depend on the SAIDs met; the negations are evaluated in the kernel |
| C109 | `data.rs` (`From<&HashMap>`, `From<&IndexMap>`, `Index`, `IndexMut`) | the order of a hash map is any permutation of its entries; induction on the entries |
| C110 | `verify_key_event`, `Verfer::verify` | the loops over the signatures read nothing but bytes, index and ondex; witness evaluated in the kernel |
| C111 | `verify_key_event`, `incept`, `Diger::new` | the first establishment event after a commitment needs a digest that reads as code E, and the first character of a text is that of its code; witness for each other code evaluated in the kernel |
| C112 | `digest` of hash.rs over abstract crates | the arms against a table of codes and algorithms; `HashOk`, assumed elsewhere, is derived |
| C113 | the loop of `ed25519::generate` | the loop as a relation; least draw that is not weak |
| C114 | `incept_partial`, `rotate_partial` given digests and keys of key sets kept elsewhere | sessions as an inductive relation with the signatures of the holder of the keys (Spec/Away); the log grows as for C90; keys given as digests: the inception has no Blake3-256 digest, and C111_never applies |
| C115 | `u32_to_b64`, `u64_to_b64` with their `f32` arithmetic (Model/Float) | rounding and logarithm are arbitrary but keep order and are exact on powers of two (Spec/Float); the comparison then holds from the start for numbers that fit, so the loop is that of C01 |
| C116 | `Number`, `to_i64`, `to_f64`, `TryFrom<&Value>` for `i64` and `f64` (Model/Numbers) | floats as rationals, infinities and NaN; casting an integer rounds its leading 53 bits to even, which is shown to be nearest among all numbers of 53 bits (Spec/Numbers); false in full: both `try_from` lose silently |
| C117 | `issueAcdc` (Model/Sample/Issue), `verifyTransactionEvent`, `ingestLoop` | two calls with different stores and environments give the same result when the issuer has the same key events (C117_blind); an issuance under a registry the verifier does not have fails at `anchorOf` (C117_refused); false in full, with a concrete call (C117_false) |
| C118 | `ingestLoop` and all it calls; copies in Spec/Ends that end at depth nothing with an outcome `z` of one's choice | the copies are the model (C118_same); the SAIDs still to be verified among those kept are a measure that each nested call makes smaller, and so from some depth on the outcome is the same for all `z` (C118_ends, C118_depth); an example in which at too small a depth the outcome is `z` |
| C119 | `verifyAnchor`, `verifyTransactionEvent` (Model/Sample/Tel) | inversion of an accepted verification down to the seal (C119_sole_partial); the controller of an event is determined, so the couple names one key event (C119_once, C119_several_false); concrete reachable store (C119_false) |
| C120 | `verifyTransactionEvent`, `verifyAcdc` | two stores that differ only after the first event of a registry give the same outcomes, by induction on the depth, since no other event of the log is read for other identifiers (C120_no_effect_false); concrete history (C120_false); inversion for credentials (C120_partial) |
| C121 | `verifyAnchor`, `verifyPathSig` | the outcome depends on the number only through its remainder by 2^32, and every number below 2^128 can be written (C121_false, C121_proof_false, C121_registry_false); inversion, and that logs of reachable stores hold event n at place n (C121_partial) |
| C122 | `wasm/src/primitives/codex.rs`, the constants of both codices | the tables are finite and complete, so facts about all their rows are decided by the kernel; from them, for all names and codes, by the properties of lookups (C122_partial, C122_codes, C122_which_partial, C122_false) |
| C123 | dates as chrono writes and reads them (`Model/Sample/Dates.lean`), the limit of 36000000000 seconds | digits read back by induction on their number; the calendar by cases of months and linear arithmetic with division; bounds of years give bounds of seconds |
| C124 | the indented print of documents (`Model/Pretty.lean`): the writer of serde_json and the cut at a number of bytes | false where the cut falls inside a character or the document is nested deeper than 127; otherwise the text is derived in the grammar of JSON (`Spec/JsonText.lean`) and has the lines of `Spec/Pretty.lean`, by induction on the value |
| C125 | `create` of sample/keri/acdc/event.rs with the random salts of `Salter` | inversion of the builder, the round trip of salts (C03) and lookups in documents with SAIDs (C37); false when the data has a field `u` |

## 4. Where the code departs from what a user would expect

Each item is proved by a `_false` theorem where one is named; the others were found while modelling and are part of
the model.

* Documents: `i64::try_from` of a float and `f64::try_from` of an integer round without an error, unlike `to_i64` and `to_f64` (C116).
* Issuing: `issue_acdc` does not look whether the registry, the sources or the schema it is told exist; it returns messages that all verifiers refuse (C117).
* Anchors: a key event with several seals anchors nothing (C119).
* Registries: the revocation of a registry is accepted and kept, and has no effect (C120).
* Anchors: sequence numbers in couples and proofs are cut to 32 bits, so numbers of no key event are accepted and kept (C121).
* JavaScript: the codes of NIST P-256 have no names in the bindings (C122).
* Printing: `pretty` cuts the text at a number of bytes and panics when that is inside a character of several bytes; documents nested deeper than 127 are not printed (C124).
* Private credentials: a field `u` of the data takes the place of the random one in the subject, which then is not blinded (C125).
* CESR: `=` is accepted inside text (C09); some inputs panic (C11, C48, C49); raw of 4 GiB and more (C13);
  `1AAI` counts as transferable (C15); `ondex` is lost for `A`, `C`, `E` (C16, C18); `qb2()` of `3A`/`3B` panics in debug
  builds (C17); `count_b64` wraps (C21); Bexter texts starting with `A` (C27); `Number`, `Salter`, `Prefixer` check only
  the code argument (C44).
* Thresholds: repeated indices count (C28, C58); sums overflow 32 bits (C29, C30); an empty list of clauses (C31, C32);
  panics (C33); texts with two slashes (C51).
* Documents: `Serder`/`Creder` never compute the digest (C39); truncated messages panic (C40); text after the SAID in
  `d` is not detected; only Blake3-256 is read back (C52); absent fields panic (C55); `fn` is read as qb64 (C55); JSON
  duplicate keys are accepted; integers from 2^63 and exponent floats panic (C47); `sizeify` finds the first version
  string in the text (C35).
* Prefixes: a key text with trailing characters derives but does not verify (C43); `verify_digest` re-sizes the version
  string, so a wrong size is not detected.
* Keys: derivation paths collide and the tier is ignored (C45); keys in reserve are reused when there are more than sixteen and
  one salt is used throughout, and only sixteen bytes of a salt are used (C91); a partial rotation with fewer keys than are in reserve is built and signed, but refused (C90); `stem` is ignored if the creator has one.
* Messages: `messagize` leaves out cigars (C53); in `sample/keri` the couples of `endorse_serder` leave out the key of a
  cigar, and `transferable()` makes it refuse non-transferable r1 witnesses.
* Verification in `sample/keri`: `siger.index() as usize > verfers.len()` is off by one, so an index equal to the number of
  keys panics (C72), as do more keys than weights, the weight `0/0`, a message without a type, with a large integer or shorter
  than it says, a registry without issuer, an issuance under a credential, an anchor that is no seal, a credential whose proof names an interaction, an event without identifier or sequence number,
  a threshold that is a list in a text, a key of a code with lead bytes, a credential without schema, and edges that name no credential, have an operator that is not a text or `DI2I`, or `I2I` for a credential without recipient (C72); `sn as u32 - 1` truncates; only self-addressing identifiers verify, so `kmi::incept` with one key and no code
  gives an identifier that is refused, as are delegated identifiers (C74); witnesses are ignored, and messages with their
  signatures are refused (C98); one signature under two codes counts twice in the proof of a credential (C97); a credential may rest on one that was
  revoked in the same stream, or on any revoked one without deep verification (C99); a revocation may name any registry (C64); the SAID of a registry is not checked
  (C65); signer and issuer, and registry and status, are not compared (C68); `DI2I` and unknown schemas panic; a stream
  with a credential and its revocation cannot be sent again (C61); deep verification of a stream trusts a forged stored
  event once the genuine event with the same SAID was sent again (C88), and trusts any stored event when an event is kept
  twice (C87); deep verification of an issuance or a revocation takes the registry's first event as it is stored (C100); nothing keeps two
  calls on one store from checking, and then inserting, two events with one sequence number (C102); a rotation does not supersede an interaction with its number that was accepted before it, so
  a controller cannot recover from stolen current keys by rotating (C105); an issuance with the identifier of a registry that is not known yet is
  kept in place of the registry, and if it has a field `ii` it decides who controls it (C107).
* Digests of next keys are compared with Blake3-256 digests only (C111): an identifier that commits to its next keys with any
  other digest code is accepted and can never be rotated.
* The codes of signatures on key events are not looked at (C110): the key decides how a signature is checked, and the ondex
  of a signature for current keys only reads as 0, so that it counts for the first key committed to if it is by that key.
* `Value::from(&HashMap)` keeps the order in which the map gives its entries, so that the SAID of the document varies (C109).
* When `deep` is left out, `verify_anchor` and `verify_key_event` take it for `false`, and `verify_transaction_event` and
  `verify_acdc` for `true`, so that it means neither for transaction events and credentials (C108). A message in a stream whose
  SAID deep verification of an earlier one met is not verified, so that some streams are accepted only with it (C108).
* Building events: `event::rotate` removes witnesses with ascending indices, so that cutting two or more removes the wrong
  ones or panics (C71); witnesses that are not there can be cut and the next threshold of an inception may be 0 (C71); `ample`
  uses `(n + f + 3) / 2`, so that four witnesses of which one may fail get the threshold four (C73); `ample(0, None)` underflows; the subject of a credential can override `d`,
  `i`, `u`; the identifier of a registry is determined by the issuer alone, so an issuer has only one.
