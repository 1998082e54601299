# A formal model of reitermarkus/nrbf-rs in Lean 4

`/repo` is a parser for the .NET Remoting Binary Format: bytes in, a `RemotingMessage` out, plus a
`serde` deserialiser over the parsed value. Everything lives in pure functions over byte slices and
one mutable parser state, so the whole crate is modelled, function by function.

## Layout

| path | content |
|---|---|
| `lean/Verif/Model/Nom.lean` | the `nom 8` primitives the crate calls |
| `lean/Verif/Model/Enumeration.lean` | enumerations, errors |
| `lean/Verif/Model/Value.lean` | `Value`, `Object`, `DateTime`, `MethodCall`, `MethodReturn`, `RemotingMessage` |
| `lean/Verif/Model/DataType.lean` | primitives, `LengthPrefixedString`, ids, lengths |
| `lean/Verif/Model/Record.lean` | all records |
| `lean/Verif/Model/BinaryParser.lean` | the stateful parser, `deserialize` |
| `lean/Verif/Model/Serde.lean` | the serde deserialisers, `from_slice` |
| `lean/Verif/Model/SerdeText.lean` | the same with error texts and names of Rust types |
| `lean/Verif/Model/Visitor.lean` | the serde layer against arbitrary user-written `Deserialize` and `Visitor` implementations |
| `lean/Verif/Model/RustTypes.lean` | the standard and derived types as such implementations, request by request |
| `lean/Verif/Model/DecimalDe.lean` | the `Deserialize` of the private `data_type::Decimal`, which nothing calls |
| `lean/Verif/Model/PartialEq.lean` | the derived `==` |
| `lean/Verif/Model/Floats.lean`, `Decimals.lean` | Rust's casts between numbers; a stand-in for `rust_decimal` |
| `lean/Verif/Model/Work.lean` | the stateful parser once more, with a counter (proved to give the same results) |
| `lean/Verif/Model/ValueEq.lean` | decidable equality for evaluating concrete cases |
| `lean/Verif/Spec/*` | specifications written without the model's parsers: UTF-8, encoders, shapes, the record grammar |
| `lean/Verif/Lemmas/*` | helper lemmas |
| `lean/Verif/Props/*` | the property theorems, each with a concrete case meeting its hypotheses (next to the theorem, or in `Props/Cases.lean`) |
| `lean/Verif/Tests.lean` | the crate's own test vectors run in the kernel (tests, not proofs) |
| `seeded/LOG.jsonl` | wrong programs tried against the theorems |

## How the code is modelled

* A slice is the list of its bytes. All slices the parser handles are suffixes of the input, so the
  list determines the position.
* `IResult` is `Outcome`: `ok rest value`, `error` (`nom::Err::Error`, recoverable), `failure`
  (`nom::Err::Failure`), and two outcomes Rust does not return but exhibits: `panic` and `diverge`.
* `&mut self` becomes state passing (`SP`). **The state survives errors**: the crate never rolls back
  what a failed attempt inserted, and neither does the model.
* `parse_classes` and `parse_referenceable` are mutually recursive. The model ties the knot with a
  depth counter starting at `input.len() + 1`; running out of it is the outcome `diverge`. C01
  proves that this never happens and that the result does not depend on the counter, so the counter is
  not an assumption.
* `while`/`loop` become recursion with an iteration bound, exceeded = `diverge`, proved unreachable.
* `Vec::drain(0..l)` with `l > len` and `unreachable!()` are `panic`.
* `BTreeMap`/`HashMap` are association lists with distinct keys.
* The width of `usize` is a parameter (32 or 64 bit, `Platform.pointerWidth`), quantified over in every theorem; it
  bounds the product of dimension lengths (`checked_mul`) and list sizes in the serde layer.
* `f32`/`f64` are bit patterns, `char` is its code point, integers are mathematical integers whose
  range is proved (C10).
* `rust_decimal` is an arbitrary pair of functions (`Platform`), quantified over in every theorem; C79 shows that what some
  theorems ask of it (texts are UTF-8, what is printed is read back) can be met.
* The casts of serde's `f32`/`f64` implementations are parameters (`FloatLib`) up to C77; C78 fixes them to Rust's `as` (`rustFloats`).

## Trusted base

* Lean 4.33's kernel. No axioms of our own, no compiled evaluation; every theorem depends at most on
  `propext`, `Classical.choice`, `Quot.sound`. Concrete witnesses use `decide +kernel`.
* The reading of the Rust source in the model (every definition cites its lines).
* The behaviour of `nom 8` (`Nom.lean`), `core::str::from_utf8` (`utf8Valid`, proved equivalent to the
  scalar-value specification of UTF-8), `char::from_u32`, the collections, `bitflags`, and, for the serde
  part, of serde's `Deserialize` impls for standard types, derived structs and self-describing types (a type that
  asks for `deserialize_any` and keeps what the visitor is given); `Serde.lean` marks which.
  The texts of C64 are those of serde's `de::Error`, `Unexpected` and `expecting` implementations (1.0.197 and
  later); how Rust prints a `str` with `{:?}` and how serde prints a float are parameters (`TextLib`).
* For C78: `Model/Floats.lean` is what the Rust reference says about `as` between integers and floats (nearest, ties to even,
  infinity on overflow; which NaN a NaN becomes is a parameter, `NaNLib`).
* For C65: `==` of `f32`/`f64` is the IEEE 754 comparison (`floatEq`, proved to compare the numbers bit patterns stand for), `==` of
  `HashMap` compares lengths and looks up every entry; `==` of `rust_decimal::Decimal` is any equivalence (`DecimalEq`).

### Not modelled

* Memory exhaustion, native stack exhaustion (C46/C47 prove the input shapes that lead there). Time is modelled only as a count of attempts, bytes and look-ups
  (C62); building values is not counted (the results are bounded by C47).
* `Display`/`Debug` formatting except `Error`'s `Display`.
* 16-bit targets (`usize` = 16 bit).
* `rust_decimal` internals.
* `nom::Err::Incomplete`, which complete parsers never produce.

## Plan per property

| id | model parts | proof |
|---|---|---|
| C01 | `deserialize` | `≠ hang` for all inputs: induction on depth and on input length, every nested call starts on a strictly shorter input; result independent of the counter |
| C02 | `deserialize`, `reshape` | every panic is traced to a BinaryArray whose values do not fill whole rows (induction on depth, using the refinement of C31/C32 for its element records); converse at the top level; absence without BinaryArray or null-run bytes |
| C03 | `deserialize` | inversion of the success path; suffix invariant |
| C04 | `SerializationHeader.parse` | case analysis, byte-level statements |
| C05–C07 | all parsers | one invariant theorem over all parsers: rest is a suffix, error positions are suffixes, strings in results and state are valid slices |
| C08–C14 | `DataType` | little-endian and bit arithmetic; independent encoders; lifted to whole messages through C49 and C60 (`Props/Scalars`) |
| C15 | `MessageFlags` | bit-level characterisation for all words; the error the caller sees from C60 |
| C16, C17 | ids, null runs | from C10; the error the caller sees from C60 (`Props/Scalars`) |
| C18 | `arraySinglePrimitive` | induction on the element list with an independent encoder |
| C19 | array loops | loop invariant; witness for the negation |
| C20, C21 | `reshape`, `checkedProduct` | induction on the dimension list with an independent shape predicate |
| C22 | `BinaryArray.parse` | two-run comparison |
| C23, C24, C38 | all | invariant: class table empty; error invariant |
| C29 | messages | witness; invariant over all parsers (at most one entry is new); two runs of the same attempt in lockstep for inputs without references |
| C25–C28, C30 | libraries, references | state-level theorems and witnesses for the negations |
| C31, C32 | all records | declarative grammar as an inductive relation; completeness by induction on derivations, soundness by induction on depth |
| C33–C36 | method records | encoders, case analysis |
| C37, C45, C49 | messages | from the above |
| C39, C50 | classes | zip/`fromIter` lemmas |
| C40–C44, C48, C51–C55 | `Serde` | induction on values and target types; sequences by their exact results; C48 by an order-blind equality of values |
| C46, C47 | all | measure over values, potential argument over consumed bytes and registered objects (each failed attempt is charged once: factor 2); explicit families for the lower bounds |
| C56 | `ErrorInner.display` | the finitely many reasons, all pairs (the type is finite: this is exhaustive, not a sample) |
| C57 | `Spec/Write.lean` (a writer; the crate has none), all parsers | the written bytes are derived in the grammar of C31 by induction on values, with the writer's id counter and library list as the invariant; then C31 completeness |
| C58 | `Model/Serde.lean`; specification `Spec/Decode.lean` (an inductive relation) | completeness by induction on the derivation, soundness by induction on the value (sub-values) with case analysis of the type |
| C59 | `Model/Serde.lean`, `Spec/Typed.lean` (types of values and a storage map), `Spec/Write.lean` | the stored value is in the relation of C58 by induction on the typing; then C57 and C58 |
| C60 | all parsers; specification `Spec/Errors.lean` (bad records: the report and the tables left behind) and `Spec/Rejected.lean` (accepted and rejected messages) | next to the exactness of what is read (C32), the exactness of what is reported, for each parser, by induction on the recursion depth; failed attempts carry the tables they leave behind, so the second pass is covered |
| C61 | all parsers; specification `Spec/Panics.lean` (where an array that cannot be reshaped is met) | the exactness of panics for each parser, by induction on the recursion depth, next to C32 and C60 |
| C62 | `Model/Work.lean` (the parser with a counter, the price of a failed attempt as a parameter), `Spec/Work.lean` | linear bound for the attempts by a potential argument (32 per byte, induction on depth); comparison of two prices for the quadratic bound; an explicit family of accepted messages for the lower bound |
| C63 | `Platform.on`; `Spec/Width.lean` | lock-step comparison of the parser on the two platforms on all suffixes of the input (`Lemmas/Width.lean`); grammar derivations carried over (`Lemmas/WidthGrammar.lean`); C58 for `from_slice` |
| C64 | `Model/SerdeText.lean` (the serde layer with the errors it makes), `Spec/Fails.lean` (an inductive relation) | `C64_erase`: erasing texts gives `Model/Serde.lean`; soundness by induction on the value, completeness by induction on the derivation with a reordering of members that brings the offending one to the front |
| C65 | `Model/PartialEq.lean` (the derived `PartialEq`, floats on bit patterns, maps by lookup), `Spec/Equal.lean` (IEEE 754 reading of bit patterns, an inductive order-blind equality) | the magnitude of a bit pattern is injective; induction on values; symmetry and transitivity on the inductive relation |
| C66 | `Spec/ReadFrom.lean` (a typing judgement that also says where text comes from) | induction on the relation of C58, with C05 and C06 for the strings of the parsed value |
| C67 | `Spec/Message.lean` | C45 and C29 (what is a message is rejected with anything behind it); witnesses for the two exceptions by evaluation |
| C68 | `Spec/Independent.lean` | frame property of the grammar (`Lemmas/Frame.lean`): a derivation survives any change of objects that are not referred to in the bytes it consumes, and leaves them alone; then completeness (C31/C37) |
| C69 | `Ty.any` (a type that asks for `deserialize_any` and keeps everything), `Spec/Image.lean` | the image is the relation of C58 at that type; induction on derivations of C58 for the other types |
| C70 | `Spec/Evolve.lean` (a symmetric relation on values, types that avoid names) | induction on derivations of C58; C69 for the members of lost fields |
| C71 | `Spec/Encodings.lean` (an inductive relation between values and sequences of pieces; libraries as a separate scan over the pieces) | mutual induction on derivations, into the grammar of C31; `C71_write`: the writer of C57 is an instance, by induction on the value |
| C72 | `Spec/EqualResults.lean` (equality of Rust values) | induction on derivations of C58 along the equality of C65 |
| C73 | Spec/Widen: `Wider`, `Corresponds`; over the declarative relation `Decodes` of C58 | mutual induction over `Decodes`, then C58_from_slice in both directions |
| C74 | Model/Visitor: the crate's deserializers against arbitrary visitors, as a relation with one rule per path through the Rust functions | Spec/Visitor: a conversation is a list of requests and answers, in closed form; each direction by induction over the run or the conversation |
| C75 | Model/Visitor | uniqueness by induction over derivations; totality by induction on the size of the value, then on the rank of nested options, then on the elements left |
| C76 | Model/RustTypes: the types as implementations in the sense of Model/Visitor; Model/SerdeText: the direct model | the run of every type over a value is constructed by induction on the size of the value and of the type; uniqueness (C75) gives the other direction |
| C77 | Model/Visitor; Spec/Related: relations between results, actions, visitors and implementations, and what can be told about a value | the run of one implementation is followed by the other, by induction over derivations; converses by turning the relations around |
| C78 | Model/Floats.lean: the integer and float casts on bit patterns; Spec/Rounding.lean: nearest number, ties to even, by comparing distances | every computed pattern is nearest (roundBits_nearest), the nearest one is unique, and magnitudes are monotone in the pattern; then through decode |
| C79 | the value invariant of Lemmas/GoodState.lean with the source of every decimal; Model/Decimals.lean, Spec/Decimals.lean: a stand-in and decimal notation | induction over the parser (GoodRecord, GoodState); reading and printing by induction over digits |
| C80 | Model/Visitor.lean (every Deserialize implementation); Spec/LookSame.lean: when values look the same | a simulation between runs over values that look the same (Props/LookSame.lean); for the converse a family of types that goes down a path and tells what is there (Props/Probe.lean) |
| C81 | array records, resolution, reshaping, method arguments | invariant of every run (also of failed attempts) with a bound on array lengths; witness by the grammar |
| C82 | Parser, deserialize, from_slice; text, libraryText, dynText (Spec/Text.lean) | the cost argument of C47 with a measure that also counts names; induction over Decodes for from_slice; nested objects for the square |
| C83 | Model/Visitor with a log (Spec/Calls.lean, Spec/Handed.lean) | mutual induction over the logged relations: sublist, count, and equality for strict strategies |
| C84 | Model/Visitor with a log (Spec/Calls.lean) | mutual induction over the logged relations, both bounds; C46 for the length |
| C85 | Model/SerdeText.lean, Spec/ReportText.lean | tables of literal texts and a grammar of numerals; equality with the printing functions by cases, numerals by induction |
| C86 | Spec/Reasons.lean | soundness from the judgement Rejected of C60 by cases, completeness by an input for each reason |
| C87 | parser, grammar with a log (Spec/Log.lean) | induction over the derivation of the message: references to an id plus the objects left in the table are at most the objects read |
| C88 | DecimalDe, visitors | the visitor as a strategy: invariant (the entries read so far are those stored); inversion of the visitor relations, C75 for existence |
| C89 | the grammar of C31, twice | C89_right by induction with renamed tables; C89_exists backwards from the end of the message |
| C90 | parser, grammar (`Spec/Texts.lean`: translations) | by induction on the derivation of the strict message (C89), the translated message is derived rule by rule, tables and slots translated along; C31 for both |
| C91 | parser, grammar (`Spec/Numbers.lean`: translations) | like C90, by induction on the derivation of the strict message; C31 for both |
| C92 | serde layer (Model/Serde.lean) with translated types and results (Spec/TextsOpaque.lean) | two-sided simulation on the declarative relation of C58, with C43, C42 for the root and C90 for the bytes |

Where the code does not do what one would expect (or what MS-NRBF says), the property states what it does
instead, for all inputs, and a concrete witness shows the deviation (`…_false`, `…_witness`).
