# Design: a Lean 4 model of sttp/goapi

The subject is the Go implementation of the STTP subscriber API in `/repo/sttp`, read as text.
The model is a set of total, computable Lean functions that follow the Go functions one by one.
The properties are in `properties.jsonl`; `MANIFEST.json` maps each to its theorems.

## Trusted base

* Lean 4.33.0's kernel. No `sorry`, no `admit`, no axioms of our own, no `native_decide`,
  no `bv_decide`. Every theorem depends at most on `propext`, `Classical.choice` and `Quot.sound`
  (`lean/Verif/Axioms.lean` prints them during the build).
* That the definitions that cite Go lines transcribe them. Each definition cites the
  file and lines it follows and states its simplifications.
* The reading of Go used throughout:
  * `uintN`/`intN` arithmetic wraps, modelled by `BitVec N` (or `Nat`/`Int` with a stated range
    when the code cannot overflow, and the lack of overflow is itself proved).
  * An out-of-range index or slice, a nil dereference, an integer division by zero, or an explicit
    `panic` is the outcome `panic` of the model's result type and ends the call.
  * A returned `error` is a value. Its text is modelled only where a property is about it.
  * Operands are evaluated left to right; in `td.readBits4() ^ int32(data[td.position])`-style expressions the Go
    specification leaves the order of the call and the index open; the model takes the call first,
    as the Go compiler does and as the protocol requires.
  * Go maps are association functions (key to optional value) since iteration order is only used where the
    result does not depend on it; where it does, the theorem quantifies over all orders.
  * Goroutines are explicit step relations: one step is one access to shared state
    (an atomic flag, a mutex, a channel, a socket, a `sync.Map` call).
* `float32`/`float64` values are opaque: 32- or 64-bit patterns for the codecs; an abstract
  ordered type, or an abstract operation, for the expression evaluator. The models in `Lib` instantiate
  the latter: IEEE 754 bits with each operation the exact result rounded to nearest, ties to even, and decimals
  as coefficient and power of ten. They are written from the documented behaviour of Go and of
  shopspring/decimal v1.3.1, whose sources are not in /repo; that they agree is trusted. Theorems whose names
  end in `_go`, and C100 to C105, are about that instance. In the same way `Lib/Aes` and `Lib/Inflate` stand for Go's AES and
  gzip, written from the standards and checked against their vectors; C129 and C130 use them, elsewhere both are arbitrary.

## Not modelled

TCP/UDP sockets, DNS, TLS, timers' real durations, garbage collection, `bufio`, Go's `regexp` and `time` parsing, time zones other than UTC, Unicode case
tables (a case-folding function is a parameter of the model), the error recovery of the ANTLR runtime and its
adaptive lookahead (the rules of the generated parser are modelled, see `Parse` and `Lex`), and the example programs. Where a property touches one of these the theorem is about
the code around it and the note in `MANIFEST.json` says so.

## Files

Each area has its own directory under `lean/Verif`:

* files without `Props` in their name: transcription of the Go code with citations (`Sync`, `Meta` and `Xml` keep
  the properties in the same file);
* `Spec.lean`: independent specification of an encoder;
* `*Props.lean`: the property theorems, each with a concrete example that meets its hypotheses.

When the English claim is false of the code, the file contains a theorem with a concrete
counterexample (name ends in `_false` or says what goes wrong) and a `_partial` theorem
with the exact guard under which the claim holds. The section "Findings" below lists them.

## Plan per property

| id | model | proof |
|----|-------|-------|
| C01 | Ticks flag operations on `BitVec 64` | bit extensionality; induction over operation lists |
| C02 | `FromUnixNano`, `ToUnixNano`, `ToTime`, `FromTime` on `BitVec 64` | `Nat` arithmetic under range facts |
| C03 | same | negation with witnesses; partial: ToTime exactly on 1677..2262, FromTime from 1970 |
| C04 | 16-byte vectors, `FromBytes`, `ToBytes`, `swapGuidEndianness` on lists of bytes | case analysis on lists of length 16 |
| C05 | `Compare` on components | refinement to lexicographic order of the bytes |
| C06 | HashSet as duplicate-free list with map semantics | refinement to `Finset`, induction over operations |
| C07 | relation predicates | iff theorems under duplicate-free guard, negations otherwise; exact answers for every slice |
| C08 | `formatNumber` as an index machine on byte arrays | loop invariant; refinement to grouping of a digit list |
| C09 | Thread as a step relation with mutex and flag | inductive invariant; negation trace for Join |
| C10-C11 | PointMetadata: adaptive code with byte counters | induction over command lists, invariant |
| C12 | unrolled 7-bit decoders | case split on group count, bit-vector lemmas |
| C13 | Decoder state machine over byte list; reference encoder in Spec | simulation relation between encoder and decoder, induction over measurements and blocks |
| C14 | panic outcome of the decoder | negation witness; progress and bounded-consumption theorems; a call sees only the bytes it takes (`Tssc/CutProps.lean`), which tells exactly which blocks panic |
| C15-C17 | `decode`, `addRecord`, lookups | induction on records; negation witness for truncation; exact outcome of every buffer |
| C18 | flag maps on `BitVec 8`/`BitVec 32` | bitwise case split, finite table lifted |
| C19-C20 | `Decode` on bytes with base times | round trip for each time format; negation for truncation |
| C21 | framing of commands | stream parser spec, induction; negation for oversize payload |
| C22 | read loop as machine over chunks | determinism: result depends only on concatenation |
| C23 | session state machine | invariant over histories; negation for first connection |
| C24 | `handleDataPacket` with parse results | negation for out-of-sequence; partial for accepted packets |
| C25 | sequence check | invariant for arbitrarily long sessions |
| C26-C28, C30, C31 | session handlers | invariants and equations |
| C29 | buffer-block cache machine | negations; partial: in-order arrival and confirmations |
| C32 | connection string builder | parser spec and round trip; negation for the NaN filter key |
| C33-C34 | connector loop and delay arithmetic on `BitVec 32` | invariant on attempts; negations for monotony |
| C35 | connector / cancel step relation | negation trace: blocked Join; partial |
| C36 | lifecycle machine | invariant over histories |
| C37 | LookupMetadata step relation | negation trace; partial: sequential callers |
| C38 | reader/producer step relation | refinement to a FIFO list; negation for Close |
| C39 | RW-lock with writer preference step relation | deadlock trace; partial without nested reads |
| C40-C41 | DataTable/DataSet | induction over additions; negation for limit 0 |
| C42-C45 | Select, SelectWhere, row comparison | refinement to filter/take; strict weak order proofs; negations |
| C46-C53, C56-C57 | evaluator operators and functions | table checks lifted to all pairs, structural proofs, negations |
| C54 | statement list evaluation | union/no-duplicates invariant |
| C55 | row accessors | equations, negations |
| C58 | signal kind and reference | finite enumeration lifted; round trip; negation |
| C59 | XML node tree traversal and path selection | induction over trees |
| C60 | adjusted values | equation over a registry history |
| C61 | adaptCommands, updatedCodeStatistics | loop invariant for the three most frequent code words, cost comparison over all states |
| C62 | `String` of the flag words as joined names | injectivity over all flag words, by bits |
| C63 | the cipher-key update of the session | invariant over histories |
| C64 | the subscribed flag of the session | invariant over histories |
| C65 | ORDER BY terms of the filter parser | comparison of the two orders; negation with a witness |
| C66 | receiving metadata: table rows to registry records | fold over the rows |
| C67 | `ParseXmlDocument`, `loadSchema`, `loadRecords`, over the reader of bytes of C120 | round trip of a rendered data set, for all strings up to escaping and from the bytes of the document; totality for all documents and all bytes; negations |
| C68 | predicates of path steps | equations for each form of predicate; negations |
| C69 | generated parser, listener | exact grouping of any two operators; negations with witnesses |
| C70 | generated parser (`expression`, `predicateExpression`, `valueExpression`, `ExpressionList`), listener | soundness by induction on the depth of calls, completeness by induction on the tree, depth shown enough; invariant of the walk |
| C71 | `ExitLiteralValue`, `parseNumericLiteral`, `strconv.ParseUint` with base 0 | induction on the digits; negation 010 |
| C72 | `ExitLiteralValue`, `ExitColumnName`, `parse…Literal` | direct; negations with witnesses |
| C73 | `andOp`, `orOp`, `unaryBoolean`, `addOp` | equations for all operand expressions; negations |
| C74 | `contains`, `startsWith`, `endsWith`, `len`, `reverse`, `trim…`; UTF-8 decoding (`Common/Utf8`) | decoding an encoded text gives it back, then lists of characters; negations with witnesses |
| C75 | `replace`, `strings.ReplaceAll`, `regexp.Expand` | decomposition of a text at the occurrences; negation with witnesses |
| C76 | `abs`, `ceiling`, `floor`, `round`, `convert` | case analysis; prefix tests on upper-cased names |
| C77 | `datePart`; the calendar (`Common/Calendar`) | calendar day numbers and their inverse for all years |
| C78 | `dateAdd` | same; overflow by computation |
| C79 | `dateDiff` | same; laws of whole floating point numbers assumed |
| C80 | the lexer rules as regular expressions, `lex` | correctness of derivatives; longest match by induction; uniqueness |
| C81 | `lex` on words | which rules can take a word or more; keyword table by decision |
| C82 | `lex` on numbers and GUIDs | same |
| C83 | `lex` on delimited texts, keys and tags | same; negations by computation |
| C84 | `lex` on operators, blanks and comments | same; negations by computation |
| C85 | `lex` on spread tokens | no rule but those of delimited texts takes a blank |
| C86 | `tokens` and `parse` | C85 with C70; a text for each proper token |
| C87 | `parseStatements` | soundness and completeness by induction over the list, on top of C70 |
| C88 | `read`, `Parser.listenAll`, `selectDataRows`, `selectDataRowSet`, `selectSignalIDSet` | C87 with C54; negations by computation |
| C89 | `Table.selectFrom` | the text `Select` makes is cut into tokens (C85), read (C87) and selected by (C42-C44) |
| C90 | `evaluateExpression`, `evaluateDataRowExpression` | C87 with the walk over statements |
| C91 | `generateTree` behind `Row.expressionTree` | C90 with C55 |
| C92 | `tokens` and `build` | one case per spelling, any letter case |
| C93 | `fixed`, `float64With` | half-even rounding of the exact rational value; reading the text back; grouping as in C08; negation |
| C94 | `splitHostPort`, `parsePort`, `dial`, `listen` | characterisation of accepted texts; equations; negations |
| C95 | the transition function `run` of a subscriber | invariants over all histories; negations by witness |
| C96 | `subscribe`, `Settings`, `App.info` | the sent parameters read back setting by setting; invariants over histories |
| C97 | `handleConnect`, `metadataGoroutine`, `run` | the log of sent commands after a connection; counting invariant over all histories; negations by witness |
| C98 | `SendServerCommandWithPayload` as steps of goroutines over one buffer | counting invariant over all schedules; buffer invariant for exclusive ones; a losing schedule for every two calls |
| C99 | `Parse`, `String` with google/uuid written out | digits against their position in the alphabet; the four forms by length; round trip |
| C100 | `applyOp` over `Lib/Decimal` | value of aligned coefficients as rationals; the quotient by the bounds of Euclidean division |
| C101 | `applyOp` over `Lib/Double` | correct rounding of rationals to IEEE 754 bits (`Lib/Round`), for every format |
| C102 | `sqrt` | integer square root of the scaled value with a sticky bit |
| C103 | comparison operators, `deriveType`, `convert` | the number each value denotes; rounding is monotone |
| C104 | `convert` from and to String; `NewFromString`, `ParseFloat`, `FormatFloat` | induction on digits; exact rounding; uniqueness of fixed notation |
| C105 | `literal` | the readers of C104 in the order the code tries them |
| C106 | `turns` over the `bufio` reader, with all of Session | a relation `Sends` says what a publisher may send and what it means, in terms of bytes and records only; induction on it with the invariant `Follows`, from the theorems on single packets (C23-C31, C35, C83-C85) |
| C107 | `runDataChannelResponseThread` as `handleDatagram`, `arriveAll` | the invariant of C106; the cut off compact loop by induction; block numbers modulo 65535 |
| C108 | `dispatchConnectionTerminated`, `runDisconnectThread`, `autoReconnect`, `connect` and the callback lock as a transition system (Sync/Reconnect) | an invariant of where the last two threads are and a measure that each action lowers; hang states as invariants of all schedules |
| C109 | callback fields of the three objects, `Set...` methods, dispatches and handlers; one field against any number of goroutines; `go` as a bag of pending calls (Client/Callbacks) | fields as functions of the history; mutual exclusion as an invariant of all schedules; permutations for the order |
| C111 | `Ticks.String`, `ShortTime`, `Measurement.String` with `time.Format` written out (Lib/TimeText) | texts against the calendar: digits by position, day numbers; fixed widths make the parts unique |
| C112 | `time.Parse(DateTimeFormat, s)` of Go 1.22 written out (Lib/TimeRead), the date fields of `loadRecords` (Lib/Xml) | each reader against the texts it takes, both ways; round trip by the texts of C111 |
| C110 | `ColumnValueAsString` and its callers, `String` of rows, columns, tables, types and data sets (Table/Image) | texts against digits, calendar and rationals (`Shows`); texts without commas split uniquely |
| C113 | the accept thread, response goroutines, termination and disconnect threads of a listening subscriber (Sync/Listen) | invariants of all schedules and of those in which publishers take turns; ranks for progress; schedules that go wrong, with the invariants that keep them so |
| C114 | `handleDataPacket` and `PutMeasurementSlice` over a memory of arrays and slice pointers, `sync.Pool` with free choices (Sync/Pool) | invariant: every pointer has one owner, every array one pointer |
| C115 | `handleMetadataReceived` over the models of `ParseXmlDocument` (Data/Load), the field texts (Lib/Xml) and `loadMeasurementMetadata` (Meta/Registry) | composition: what is loaded of a rendered table is its rows (C67), each getter reads the row, the last row wins (C66); from bytes by C67 |
| C116 | the eight enumerations with values and cases of their `String` methods, `strconv.FormatInt(i, 16)` (Lex/Names) | hexadecimal digits read back; tables compared entry by entry (they are finite and complete); operators by `C70_parse` and `C70_build` |
| C117 | `Dial`, `Close`, response goroutine, termination and disconnect threads as a transition system, one read or write of a flag, pointer or lock per step (Sync/Close) | inductive invariants over all schedules; a measure for termination; witnesses by running the schedule, for the endless one an invariant of all continuations |
| C118 | `addRecord` and `decode` as they act on the metadata registry, with look-ups, assignments and metadata (Meta/Keys) | a key with a source is an invariant of everything but metadata and connecting; the decoder of C15 for caches |
| C119 | `NewValueExpression`, `NullValue` and the eight readers, values by dynamic type (Expr/Reading) | cases over types and values; zero values written out |
| C120 | `LoadXml` and `UnmarshalXML` with the decoder of encoding/xml written out: names, attributes, text with entities and line ends, CDATA, comments, instructions, directives, name spaces (Xml/Decode) | the texts are given by a grammar (Xml/Grammar) that mentions no reader; each reader is proved to take exactly the texts of its rule, both ways; elements by mutual induction, uniqueness because tokens are read by functions |
| C121 | `BinaryLength`, `addRecord`, `decode` (Sic/Model) | every outcome of the decoder is known (C17), the length follows by induction over the records |
| C122 | `CloneRow`, `CloneColumn`, `AddColumn` (Table/Copy) over the readers of rows (Table/Row) | induction over the loop; two rows made by the table that agree in stored columns read the same at any depth |
| C123 | the UDP sockets and their goroutines as a transition system (Sync/DataSocket) | invariant over all schedules: with patience only the socket held is open; a leaked socket stays open under every step |
| C124 | `handleConfigurationChanged` and its goroutine beside packets and metadata goroutines (Client/Model) | accounting invariant over every order of packets and goroutines: requests plus goroutines to come are announcements; each command sent is fixed by the configuration |
| C125 | `showMetadataSummary` and the data set handed over (Meta/Summary), on top of C67, C93, C110 | data sets read are keyed by upper-case name (invariant of loading), so each table counts once in any order of the map; lines and total by induction over the tables; composed with the byte-level C67 |
| C126 | one parser object over a sequence of calls (Table/Again): tokens left and results, on top of the text model of C88 | a parse leaves no token; by induction over the calls the parser stays spent, so `Evaluate` equals that of a text with no token; witnesses for the negation |
| C127 | the two goroutines that share `baseTimeOffsets` (Session/Rotation), one store or one decoded measurement per turn, on top of C19/C27 | invariant over schedules relating the bytes left to the entries sent; a measure of turns for delivery; the word after the stores by induction; `loop_turns` ties the turns to the loop of Session/Model |
| C128 | the goroutine of the command channel in the callback of a reader, readers, the disconnect thread and assignments (Sync/Stop), one action per lock, channel operation or flag | invariant over schedules; a measure of the steps left after Disconnect; inspection of the states where no goroutine of the package can go on; the state that hangs is kept by every action but a call or close of that reader |
| C129 | AES and cipher block chaining written out from FIPS 197 and SP 800-38A (Lib/Aes), `decipherAES`; the session model with it (Session/Sealed) | each layer of the cipher has its inverse; the columns by linearity and tables of all bytes (decided); induction over rounds and blocks; padding as further bits of a TSSC block |
| C130 | `decompressGZip` with `compress/gzip`, `compress/flate` and `hash/crc32` over bits (Lib/Inflate), the standards as relations (Lib/InflateSpec), the session model with it (Session/Compressed) | the codes as intervals of sequences of 15 bits, disjoint, so that no code begins another; each reader is equivalent to its relation, by induction over symbols, lengths, blocks and members; fuel never runs out as each step takes a bit |
| C131 | the parser with what ANTLR does at a token that cannot go on after a statement (Parse/Stray), under the functions that take texts (Table/Text) | the reader is equivalent to a relation on token lists that has anything behind the statements; results depend on the statements only; counterexamples by evaluation |
| C132 | `resolveDNSName`, the connection ID of `establishConnection`, `net.JoinHostPort` (Client/ConnectionID), over `net.SplitHostPort` (Client/Address) | what is joined splits back; the host is what stands behind the last opening parenthesis, the port behind the last colon |
| C133 | the functions that select from a table (Table/FromTable) over those that take texts (Table/Text), with the map of the data set after any calls | the table found under a name is the last one added; then as C88 and C89; counterexamples by evaluation |
| C134 | `Channels`: Session with `Chan` and the flag for datagrams; `Move.run` | induction on the history with the counts of single packets (C26) |
| C135 | `Inside`: the goroutine of a callback that calls Disconnect or Close, of any kind, and the disconnect thread | an invariant over all states, checked for each step; a measure for the end |
| C136 | `KeyRotation`: `ds.keyIVs` as two words, one goroutine storing, the other loading | an invariant that tells which keys each datagram has been read with; simulations for updates to come and past |
| C137 | `Examples.parseCmdLineArgs`, with the address reading of C94 | case analysis; the last colon of a text |
| C138 | `Session.Flight`: publisher, channels, datagrams and the two goroutines as a transition system; `Session.receiveAll` for the confirmations | an inductive invariant over all actions; what each handler can send |
| C139 | `strings.ToUpper`, `ToLower`, `EqualFold` and the search of `(?i)` written out (`Lib/Case`); the mapping of characters beyond ASCII that belong to no ASCII letter is a parameter | exact characterisation by characters; decomposition of a text into characters and at the leftmost matches; negation with witnesses |
| C140 | `regexp.Compile` and `FindStringIndex` written out for characters, classes, groups, `|`, `* + ?` and `^ $ \\b` (`Lib/Regexp`): the reader of patterns as a stack machine, the search as the list of ends in the order of backtracking | what an expression matches between two positions is a relation by recursion on it, the loops being transitive closures; the ends found are those of the relation, the search goes through all places where a character begins; what is written is read back; negation with witnesses |
| C141 | the loop of the simple examples, the receivers of the advanced ones and the key loop of `SimpleResubscribe` as functions of what comes and of the readings of the clock (`Examples/Show`) | what is shown is characterised by which earlier messages there are, by induction on the events from the end; negation with witnesses and exactly when; the filter expressions go through lexer, parser and evaluation of C88 |
| C142 | `strconv.ParseFloat` of texts that are no plain decimal number, with `special` written out; `Rest.withFloats` puts it in the place of the open parameter (`Lib/Float`) | the texts are characterised letter by letter as an inductive relation, which `special` is proved to decide; a written infinity or NaN through the bits of its text; negation with witnesses |
| C143 | the functions of `hashset` once more, over a Go map that compares its keys by an == that is only symmetric and transitive (`HashSet/Comparable`) | a relation between the list of keys and an abstract set with a count of NaNs is kept by each operation; induction on the history; the exact length after Clear and exactly when a set equals itself |
| C144 | `parseGuidLiteral` and `ExitLiteralValue` for the texts of the rule GUID_LITERAL (`Lib/GuidText`; nothing new modelled) | the digits as pairs, then the four forms of C99 by length; a text in braces with two dashes has the length of a bare one and is told from it by its first byte |

## Modelled code

Directories of `lean/Verif` and the code they follow. Each definition cites its lines; what is not listed is not modelled.

| directory | code in `/repo/sttp` | parameters and simplifications |
|-----------|----------------------|--------------------------------|
| Ticks | `ticks/Ticks.go` | Go's `time.Time` as seconds and nanoseconds |
| Guid | `guid/Guid.go`, google/uuid v1.3.0 (`Parse`, `String`) | random generation left out |
| HashSet | `hashset/HashSet.go` | map as a list without repeated keys |
| Format | `format/Common.go`, `Int.go`, `UInt.go` | integers; `Float.go` is not modelled |
| Tssc | `transport/tssc/Decoder.go`, `PointMetadata.go` | the encoder is a specification |
| Sic | `transport/SignalIndexCache.go` | |
| Compact | `transport/CompactMeasurement.go`, `Measurement.go` | floats as bit patterns |
| Modes | `transport/Constants.go`, `SubscriptionInfo.go`, `DataSubscriber.go` (operational modes, subscription string) | number texts as parameters |
| Session | `transport/DataSubscriber.go` (commands, responses, data packets) | AES and gzip as arbitrary functions |
| Session/DataChannel | `transport/DataSubscriber.go` `runDataChannelResponseThread` | one datagram per read, cut off at 32768 bytes; responses of the two channels are processed one after the other |
| Session/Publisher | none: what a publisher may send, the specification of C106 | |
| Connector | `transport/SubscriberConnector.go` | dialling as an oracle; cancel as a transition system |
| Thread | `thread/Thread.go` | transition system |
| Sync | `transport/DataSubscriber.go`, `Subscriber.go`, `MeasurementReader.go` (concurrency) | transition systems |
| Expr | `data/Expression.go`, `ExpressionTree.go`, `ValueExpression.go`, `UnaryExpression.go`, `OperatorExpression.go`, `InListExpression.go`, `FunctionExpression.go`, `ColumnExpression.go`, `Constants.go` | `Prim`: floats, decimals, the functions of `time.Time`, Unicode case, regular expressions; `Toy` instance for examples; UTF-8, trimming, replacement and the calendar are modelled (`Common/Utf8`, `Common/Calendar`), time zones are not |
| Table | `data/DataTable.go`, `DataSet.go`, `DataRow.go`, `DataColumn.go`, `OrderByTerm.go`, `FilterExpressionParser.go` | `Parser` works on statements, `Text` on texts with the models of lexer and parser; `sort.Slice` through what it promises |
| Meta | `transport/SignalKind.go`, `MeasurementMetadata.go`, `DataSubscriber.go` (registry), `Subscriber.go` (metadata) | `TextLib`: case and trimming |
| Xml | `xml/XmlDocument.go`, `XmlNode.go` | `Load`, `Select`, `Predicate` work on the decoded tree, `Decode` makes it from bytes: the decoder of `encoding/xml` of Go 1.22 as used here, written from its documented behaviour and trusted to agree; the tables of name characters beyond ASCII are a parameter; the limit of the stack is left out |
| Data | `data/DataSet.go` (XML), `data/DataType.go` | readers of dates, floats, decimals and GUIDs are parameters; integer reading (`strconv.ParseInt`, base 0) is modelled |
| Parse | `data/FilterExpressionSyntax.g4`, `data/parser/filterexpressionsyntax_parser.go` (expressions and statements), `data/FilterExpressionParser.go` (listener, literals) | tokens as the lexer makes them; a text with a syntax error has no tree, except that what stands behind the statements is ignored (Parse/Stray; what ANTLR does there is taken from its documentation); the parser's prediction by look-ahead |
| Lex | `data/FilterExpressionSyntax.g4` L217-371, `data/parser/filterexpressionsyntax_lexer.go` | the rules as regular expressions over code points, matched by derivatives; that ANTLR takes the longest match and, of equal ones, the first rule is trusted, as is that the serialized automaton is that of the rules |
| Format/Float | `format/Float.go`, `strconv.FormatFloat` with format `f` | the library function is modelled as exact rounding of the value, half to even |
| Client | `Subscriber.go` (dial, listen, subscribe, metadata), `Config.go`, `Settings.go`, `transport/SubscriberConnector.go` (as used) | the network is a parameter; each call of the application and each packet is one step, goroutines of received metadata and of changed configurations are steps of their own |
| Sync/Send | `transport/DataSubscriber.go` (`SendServerCommandWithPayload`) | each write of one byte into the buffer and the write to the socket are steps |
| Lib | what /repo uses of Go's `float64` and `float32`, `math`, `strconv`, `time.Duration` and of `github.com/shopspring/decimal` v1.3.1 (go.mod L10) | written from their documented behaviour, as their sources are not in /repo: IEEE 754 values as sign and bits with correct rounding of the exact result, decimals as coefficient and exponent; exponents of decimals are unbounded integers; `NewFromFloat`, `Pow`, texts that are no plain numbers and conversions out of range stay parameters (`Rest`) |
| Sync/Reconnect | `transport/DataSubscriber.go` (L326-368, L608-733, L1501-1533), `transport/SubscriberConnector.go` (L79-131, L198-243), `thread/Thread.go` | each action on a flag, thread pointer or the callback lock is one step; `Cancel`, `Dispose`, listening and users' own calls other than a `Connect` in a callback are left out |
| Sync/Listen | `transport/DataSubscriber.go` (L370-456, L590-725, L752-877) | each action on a flag, a socket, a pointer to a thread, `connectActionMutex` is a step; callbacks, the data channel and writes left out |
| Sync/Pool | `transport/DataSubscriber.go` (L1224-1263), `Subscriber.go` (L103-106) | memory of arrays and slice pointers; each write of an element and each operation on the pool is a step; what the parsers write is given |
| Client/Callbacks | `Subscriber.go` (L56-84, L241-343, L443-543, L655-841), dispatches of `transport/DataSubscriber.go` and `transport/SubscriberConnector.go` | callbacks are numbers; what callbacks do is left out; one field at a time against goroutines |
| Lib/TimeText, Lib/TimeRead, Ticks/Text | `time.Format` and `time.Parse` for the layouts of `ticks/Ticks.go` (L77-80) and `data/DataSet.go` (L46); `Ticks.String`, `ShortTime`, `Measurement.String` | written from package time of Go 1.22 (go.mod L3); the zone of a parsed time is left out, as only the instant is used |
| Lib/Xml | the readers of field values of `data/DataSet.go` (L295-335) | float texts that are no plain decimal numbers (`NaN`, `INF`, hexadecimal) stay parameters |
| Table/Image | `data/DataRow.go` (L532-750, L1443-1469), `data/DataTable.go` (L144-150, L203-245), `data/DataColumn.go` (L77-85), `data/DataType.go` (L85-120), `data/DataSet.go` (L132-151) | the order in which Go walks a map is a parameter |
| Lib/MetadataProps | `Subscriber.go` (L517-524) | the summary message, the callback and Subscribe (L526-541) are left out, they do not touch the registry |
| Lex/Names | `data/Constants.go` (L50-212, L301-434, L493-581), `transport/Constants.go` (L306-412, L488-587), `transport/SignalKind.go` (L61-106) | enumeration values are integers without bounds, which covers `int`, `byte` and `uint16` |
| Sync/Close | `Subscriber.go` (L88-92, L187-225), `transport/DataSubscriber.go` (L206-214, L326-420, L608-730, L801-877), `thread/Thread.go` (L47-83) | `AutoReconnect` off; the callback lock, validation, writes and the data channel are left out; a packet is read in one action |
| Meta/Keys | `transport/SignalIndexCache.go` (L65-71, L168-231) | one goroutine at a time |
| Expr/Reading | `data/ValueExpression.go` (L47-95, L114-116, L162-183, L198-364) | Go types without a value type are one case |
| Table/Copy | `data/DataTable.go` (L73-77, L118-120, L185-194) | what a parser returns beside an error is a parameter |
| Sync/DataSocket | `transport/DataSubscriber.go` (L458-606, L651-725, L879-897), `thread/Thread.go` (L75-95) | one call at a time; answers arrive while connected; the command channel, callbacks and the commands sent are left out; what `Close` of a nil `*net.UDPConn` does is a parameter |
| Meta/Summary | `Subscriber.go` (L517-541, L611-652), `data/DataSet.go` (L96-104) | the time taken and the order of the map are parameters |
| Parse/Stopped, Table/Stopped | `data/FilterExpressionParser.go` (L202-397, L408-581, L592-1278) | the walk of Parse/Listener and Table/Text with the state kept where a panic ends it (proved to be the same walk otherwise); stack overflow, which ends the program, is a panic |
| Table/Again | `data/FilterExpressionParser.go` (L41-60, L85-105, L138-148, L202-304), `data/parser/filterexpressionsyntax_parser.go` (L404-450, L525-561) | syntax errors other than behind the statements are not modelled; a data set is defined; ANTLR's `Consume` stays at the end of the stream |
| Session/Rotation | `transport/DataSubscriber.go` (L158, L861-897, L1123, L1224-1258, L1357-1389), `transport/CompactMeasurement.go` (L279) | 64-bit words are stored and loaded whole and in order; cache and subscription stay the same; packets neither encrypted nor TSSC |
| Sync/Stop | `MeasurementReader.go` (L37-69), `Subscriber.go` (L439-441, L784-790), `transport/DataSubscriber.go` (L216-234, L651-725, L801-877, L1253-1261) | one `Disconnect`; other callbacks return; `sync.RWMutex` as documented: an announced writer keeps readers out |
| Lib/Aes | `transport/Common.go` (L36-49) | `crypto/aes` and `crypto/cipher` written from the standards, trusted to agree; checked against the vectors of FIPS 197, appendix C, and SP 800-38A, F.2.1 |
| Lib/Inflate | `transport/Common.go` (L51-66) | `compress/gzip`, `compress/flate`, `hash/crc32` written from their documentation and RFC 1951, 1952, trusted to agree; memory is not limited |
| Client/ConnectionID | `transport/Common.go` (L68-84), `transport/DataSubscriber.go` (L384-397) | `net.LookupAddr` is a parameter; hosts without brackets and parentheses |
| Meta/SignalType | `transport/SignalKind.go` (L138-175) | `unicode.ToUpper` gives `V` for `v` and `V` only |
| Table/FromTable | `data/FilterExpressionParser.go` (L1397-1478), `data/DataSet.go` (L62-82, L120-129), `data/DataTable.go` (L253-275) | tables and data sets are not nil; a column of a tree is its position, the type is that of the table it is read from |
| Table/SelectExact | `data/ExpressionTree.go` (L75-164), `data/FilterExpressionParser.go` (L1397-1478) | no new model: the outcome of every selection, errors and panics included, as a relation on the rows (`Scanned`) that has one solution |
| Session/Totals | `transport/DataSubscriber.go` (L370-381, L801-897, L1593-1604), `Subscriber.go` (L389-441) | as Session and Session/DataChannel; one response is processed at a time |
| Sync/Inside | `transport/DataSubscriber.go` (L203-214, L595-725), `transport/SubscriberConnector.go` (L79-130, L244-263), `thread/Thread.go` | one call from one callback; callback lock without writers; the peer stays as it is; threads that do not run the callback end when the sockets are closed |
| Session/KeyRotation | `transport/DataSubscriber.go` (L1175, L1206-1222) | words stored and loaded whole and in order; capacity not read; keys do not change after they are announced; after a panic nothing happens |
| Examples/CommandLine | `examples/*/ParseCmdLineArgs.go` (L34-57) | of the messages only the text they quote; exits are outcomes |
| Session/Flight | `handleUpdateSignalIndexCache` (L1053-1103) and `handleDataPacket` (L1192-1262) with a publisher on the other side | a cache is the number of its update; one connection; protocol version 2; the publisher waits for confirmations, as Constants.go L264-266 has it |
| Lib/Case | `strings.ToUpper`, `ToLower`, `EqualFold`, `unicode.ToUpper` and `regexp` with `(?i)` and a quoted text, as used in `data/ExpressionTree.go` and `transport/SignalKind.go` | the case mapping of characters beyond ASCII is a parameter that stays beyond ASCII but for dotless i, dotted I, long s and Kelvin sign |
| Lib/Regexp | `evaluateRegEx` (data/ExpressionTree.go L2173-2223) with `regexp.Compile` and `FindStringIndex` | counted repetition, flags, named groups, `\p`, `\Q`, octal and hexadecimal escapes, POSIX classes, U+FFFD and patterns of more than 1000 bytes are a parameter |
| Examples/Show | `main` of the simple examples, the receivers of the advanced ones (examples/*/*.go), `readKey` of `SimpleResubscribe`, the default loggers and receivers (Subscriber.go L692-724) | instants of the monotonic clock in nanoseconds; what the goroutines of an advanced example do comes one after the other; a terminal gives a line for each read |
| Lib/Float | `strconv.ParseFloat` of texts other than plain decimal numbers (ValueExpression.go L551, ExpressionTree.go L1942, DataRow.go L360-363, DataSet.go L301-304) | hexadecimal numbers, underscores and exponents of 100000 and more stay a parameter |
| HashSet/Comparable | `HashSet` over element types whose == is no equality (HashSet.go L34-302) | no interfaces as elements; a range visits each key once, in any order |
| Lib/FloatText | `Convert(Convert(Name, 'Double'), 'Decimal') > 0` from its text to the rows selected (nothing new modelled; uses Lex, Parse, Table, Lib/Case, Lib/Float) | |
| Lib/GuidText | GUID literals from their text to the Guid (nothing new modelled; uses Lex, Parse, Guid, Table) | |

## Findings

Claims that are false of the code, each with a machine-checked counterexample.

* C03 `C03_full_range_false`: C03, refuted. The full claim, that every value between the documented `Min` and `Max` converts to the instant it denotes, is false: year 1601 and year 2300 come out wrong.
* C03 `C03_fromTime_false`: Also refuted for `FromTime`: an instant of the year 1900 does not come back.
* C03 `C03_fromTime_before_epoch_wrong`: C03, `FromTime` before the epoch. For every instant of the two centuries before 1970 the result of `FromTime` is far from the denoted timestamp (it lands after the year 2262).
* C06 `C06_symmetric_duplicates_false`: So the mathematical symmetric difference is not computed when the slice repeats an element.
* C07 `C07_properSuperset_empty_false`: C07, refuted for an empty receiver. The empty set claims to be a proper superset of everything.
* C07 `C07_duplicates_false`: C07, refuted for repeated elements. SetEquals, IsSupersetOf and IsProperSupersetOf compare the length of the slice, so a slice that repeats an element is misjudged.
* C07 `C07_setEquals_accepts_smaller`: SetEquals errs in the other direction too: it accepts a slice with a repeated element that misses an element of the set.
* C09 `C09_join_after_start_false`: C09 is false of the code: `Start` has returned, and a `Join` issued afterwards returns at once, because the launched goroutine has not set the flag yet; the function begins only after that.
* C09 `C09_join_during_execution_false`: C09 is false of the code: two callers pass the check before the first execution begins; when the first execution clears the flag after the second one has begun, a `Join` issued during the second execution returns at once.
* C14 `C14_truncated_block_panics`: A block of one byte, the code word announcing a 32-bit ID with nothing after it, makes the decoder index past the end of its buffer.
* C16 `C16_reassigned_index_false`: The first signal is still listed and counted, and its index now belongs to the other signal.
* C17 `C17_truncated_cache_panics`: A cache that announces one record and ends there makes the decoder slice past the end.
* C19 `C19_stale_mark_false`: The stale mark excluded by `hflag` does break decoding: a measurement that was once sent with a base time and is sent again after the base time was cleared reports 17 bytes but marks its time as an offset.
* C20 `C20_truncated_panics`: Nine bytes, with time expected, panic.
* C20 `C20_consumed_beyond_end`: A related defect: when the base time is not set, `Decode` accepts an offset time without checking that its bytes are there, and reports more bytes consumed than the buffer holds, with the timestamp left as it was.
* C21 `C21_large_payload_panics`: 32764 bytes make the send panic.
* C22 `C22_unsubscribe_loses`: A header read in that moment is dropped although its body is still to come. The first four bytes of the body, which begins with a response code of at least 0x80, are then taken for a packet size of 2 GiB or more, and none of the packets in the stream (up to 2 GiB of them) is processed.
* C22 `C22_unsubscribe_false`: The statement of C22 with an `Unsubscribe` in progress is false: the publisher sends one packet that reports a changed configuration, and the application is never told.
* C23 `C23_first_connection_false`: `NewDataSubscriber` (L195) leaves the validated flag set, so a configuration change reported before any handshake reaches the application.
* C23 `C23_noop_false`: On any reconnection a NoOP response, which carries no proof of anything, opens the gate, and the configuration change after it is reported.
* C23 `C23_short_packet_panics`: Any packet of fewer than six bytes, from any peer, validated or not, ends the program.
* C24 `C24_out_of_sequence_false`: From any state, a block with a number other than 0 and the one expected is not decoded, and yet `count` measurements are delivered: whatever the pooled slice held before (earlier measurements), or that many made-up measurements of the empty signal, value 0, at time 0.
* C24 `C24_missing_cache_false`: Nothing is decoded, and yet `count` measurements are delivered: what the pooled slice held before, or made-up ones.
* C24 `C24_unknown_version_false`: Nothing is decoded, the connection is ended with an error, and yet `count` left-over or made-up measurements are delivered.
* C24 `C24_cut_false`: It says `count` measurements and has fewer, then less than a measurement's bytes. The connection is ended with an error, but first `count` measurements are delivered: those it has, and for the others what the pooled slice held before, or made-up ones.
* C28 `C28_version1_index_false`: "For version 1 there is a single cache" fails: after any update in version 1 by a subscriber that never had version 2, a data packet with the cache-index bit set is looked up in the other, empty cache, and none of its measurements is decoded.
* C29 `C29_content_never_delivered`: Whatever packets arrive, from any state whose cached blocks have no content (as when the subscriber is made), no block handed to the application has its content: the buffer is always nil.
* C29 `C29_out_of_order_false`: When block e+1 arrives before the expected block e, both are confirmed, so neither will be sent again, but only block e is handed over, followed by two made-up empty blocks; block e+1 is not delivered and is still the expected one.
* C29 `C29_repeated_false`: When the block before the expected one arrives once more, the cache grows to 2^32 entries (it takes 40 bytes for each).
* C29 `C29_stale_blocks_false`: Blocks still waiting when the last connection ended are not forgotten. The very first block of the new connection is followed by as many made-up empty blocks as were waiting.
* C30 `C30_short_panics`: Fewer than four payload bytes end the program.
* C31 `C31_version_false`: The version field never holds the version.
* C31 `C31_ambiguous_false`: The announcement of the default options is that of version 98: a publisher cannot tell them apart.
* C32 `C32_nan_filter_false`: Whether requested or not, the string has no setting of that name.
* C33 `C33_no_interval_never_stops_false`: C33 is false in general: with `RetryInterval` zero every failed dial resets the counter, so `Connect` with a limit of one dials an unreachable host for ever, without ever waiting.
* C33 `C33_second_connect_never_dials`: After `Connect` gave up, the counter stays at the limit: calling `Connect` again makes no attempt at all and fails at once, although the host may be reachable by now.
* C33 `C33_no_interval_false`: Without an interval no positive limit is ever met: whatever it is, and whatever the counter below it, `Connect` dials an unreachable host as often as the network answers, never waits and never returns.
* C33 `C33_negative_never_dials`: Any other negative `MaxRetries` forbids even the first attempt: `Connect` fails at once, whatever the network would do.
* C34 `C34_decreases_after_13_false`: C34 is false in general: with a 1 s interval and a maximum of 10 000 s the fourteenth attempt waits half as long as the thirteenth.
* C34 `C34_overflow_decreases_false`: C34 is false in general: with a 5 minute interval capped at 10 minutes, the product of the thirteenth attempt overflows and the delay falls back to 5 minutes.
* C35 `C35_cancel_deadlock_false`: C35 is false of the code: `Cancel` stops the pending timer the reconnect thread waits for, then waits for that thread; neither ever moves again.
* C35 `C35_dial_after_cancel_returned_false`: C35 is false of the code: `autoReconnect` has tested the flag, `Cancel` runs and returns, then the reconnect goroutine clears the flag and dials.
* C35 `C35_connect_hangs_false`: C35 is false of the code: `Cancel` during the retry wait of a user's `Connect` returns, but that `Connect` waits for the stopped timer for ever.
* C35 `C35_unlimited_false`: Where the sequence still clears the flag, `Cancel` is lost: any number of connection attempts can follow, also when `Cancel` has returned.
* C36 `C36_subscribed_while_disconnected_false`: C36, false as stated: the subscriber can be left disconnected, the disconnect complete and the response goroutine ended, with the subscription flag set.
* C36 `C36_terminated_without_connection_false`: C36, false as stated: the connection terminated callback is invoked though no connection was ever established.
* C36 `C36_terminated_twice_false`: C36, false as stated: one connection, lost once and without any user call, can invoke the connection terminated callback twice.
* C36 `C36_disconnect_again_false`: Calling `Disconnect` again after a disconnect invokes the callback again.
* C37 `C37_same_record_false`: Two calls for the same signal that both look before either has stored get two different records, and only the first is in the registry.
* C38 `C38_close_crashes_false`: Whenever the callback has a measurement to send, `Close` makes its send panic and the program ends, and so does a second `Close`.
* C38 `C38_closed_nil_false`: After `Close`, `NextMeasurement` returns at once, with no measurement but the state that says there was one.
* C39 `C39_nested_sync_false`: A callback that is run by a goroutine holding the read side and that causes another dispatch (nested read side), while another goroutine has begun to assign a callback: both wait for each other, for ever. This is, for example, `ConnectionTerminatedCallback` (DataSubscriber.go L695-701) calling something that reports an error (`dispatchErrorMessage`, L743) while a `Set...Receiver` call is under way. It needs no callback of the application: `handleConnect` holds the read side of the mutex of the `Subscriber` (Subscriber.go L490) while its default receiver reports the connection by `StatusMessage`, which takes that read side again (L466-474, L708-718), so any `Set...` call while a connection is made can hang both.
* C39 `C39_assign_in_callback_false`: A callback run under the read side that assigns a callback waits for itself.
* C40 `C40_index_false`: A column object added twice: the column at position 0 then says its index is 1, for all names and types.
* C41 `C41_zero_false`: With limit 0 `RowsWhere` gives the first matching row, if there is one, instead of none.
* C41 `C41_select_zero_false`: `DataTable.Select` with limit 0 is the same as with no limit.
* C42 `C42_null_false`: Comparing with a null yields a null that is not Boolean, and the selection fails instead of leaving the row out.
* C43 `C43_top_false`: `TOP 1 ... ORDER BY A` over 3, 1, 2 gives the row of 3 with any sorting function, though the row of 1 comes before it.
* C44 `C44_nan_false`: With a NaN the comparison is not a strict weak order: 2 and NaN are unordered, NaN and 1 are, but 1 comes before 2.
* C44 `C44_stored_type_false`: `SetValue` takes a value of any type; sorting by that column then panics.
* C45 `C45_right_null_false`: Refuted for shifts and `LIKE`: a null right operand is an error, not null.
* C45 `C45_joined_false`: A comparison with null cannot be joined by `AND` or `OR`: the null it gives has the type the operands were compared as, so that unless this is Boolean the whole expression is an error.
* C46 `C46_symmetric_false`: Full statement refuted: the operand order changes the type a comparison is made in, and with it its result. In the library of `Toy` (which agrees with Go on these values) `1 = '01'` compares numbers, `'01' = 1` compares texts.
* C46 `C46_no_panic_false`: "Evaluation never panics" refuted: `1 / 0`, `1 % 0` and `True = 1`, whatever the library functions.
* C47 `C47_exact_false`: With case-exact equality "exactly one of `<`, `=`, `>`" is false: two texts differing in letter case only are neither, as `<` and `>` have no case-exact form.
* C47 `C47_fold_false`: Where folding and upper case differ (in Unicode: `k` and the Kelvin sign, which fold together but have different upper case) two texts are equal and one is less than the other, or greater.
* C47 `C139_consistent_false`: Refuted: one of `<`, `=` and `>` holds. The Kelvin sign is both equal to and greater than `k`; the dotless i is neither less than, equal to nor greater than `i`, and yet both at most and at least `i`.
* C49 `C49_no_wildcard_false`: A pattern without a wildcard matches nothing, not even the equal text.
* C49 `C49_empty_pattern_false`: The empty pattern matches every text, not only the empty one.
* C50 `C50_second_argument_decides`: What the code does: the second argument is tested and the first is never looked at.
* C50 `C50_condition_ignored`: The condition has no influence.
* C50 `C50_iif_false`: `IIf(True, False, 'b')` gives `'b'` and `IIf(True, 'a', 'b')` is an error.
* C51 `C51_exponent_ignored`: What the code computes for two Int32, two Int64, two Decimals or two Doubles: the first to the power of the first.
* C51 `C51_exponent_ignored_decimal`: 
* C51 `C51_power_false`: `Power(2, 3)` is 4 and `Power(2.0, 3.0)` is 4.0.
* C52 `C52_is_null_false`: With a null default even a test value that is not null is refused.
* C53 `C53_substr_false`: The sum of index and length can overflow, and then SubStr panics: `SubStr('abc', 1, 9223372036854775807)`.
* C53 `C53_nth_index_of_false`: Looking for the empty text past the end panics: `NthIndexOf('', '', 0)`.
* C53 `C53_split_no_delimiter_false`: Text that does not contain the delimiter is lost: the only part should be the text itself.
* C53 `C53_split_false`: A delimiter at the very start is taken for a missing one: `Split(',b', ',', 1)` is empty instead of `b`, `Split(',b,c', ',', 1)` is `,b`; overlapping occurrences of the delimiter panic; an index past the end gives the empty text, not null.
* C55 `C55_null_false`: The claim fails for null results: a String column whose expression is null reads as the empty text, an Int32 column as 0, both flagged as not null.
* C55 `C55_by_name_false`: The untyped reader by name does not compute: for a computed column it reports nil or the expression itself, whatever the column's expression yields.
* C55 `C55_circle_false`: A column computed from itself has no value at any depth: reading it overflows the stack.
* C55 `C55_date_false`: A date read through a computed Boolean column is the opposite of the same date converted to Boolean by an expression, for all dates.
* C56 `C56_shift_right_false`: The two widths disagree about negative numbers: -2 >> 1 is -1 for an Int32 and the largest Int64 for an Int64.
* C56 `C56_negative_amount_false`: A negative multiple of the width does not wrap to zero: every bit is shifted out, while shifting by zero keeps them.
* C57 `C57_boolean_false`: Converting a Boolean to Int32 panics, though Boolean to Int64, Decimal and Double works.
* C57 `C57_double_false`: Two Int64 that round to one float64 (such as 2^53 and 2^53 + 1) do not both survive the trip through Double.
* C57 `C57_double_go_false`: The Int64 2^53 + 1 does not survive the trip through Double.
* C58 `C58_no_panic_false`: Short last parts make the parser panic, the one of "SHELBY-1" for instance.
* C58 `C58_negative_false`: The source swallows the kind, and one digit is a panic.
* C58 `C58_acronym_false`: Refuted: acronyms of signal kinds are the listed ones. With a long s, `SF` is still taken for status flags.
* C59 `C59_no_panic_false`: The claim that no path makes it panic is false: an empty predicate does, on any node with a child.
* C65 `C65_inverted`: How a single ascending term over a column of strings orders two rows, in the code: with the modifier by the upper-case strings, without it by the strings themselves.
* C65 `C65_modifier_false`: `ORDER BY BINARY PointTag` puts "alpha" before "Beta", though in an exact comparison "Beta" comes first; without `BINARY` it is the other way round.
* C66 `C66_key_ignored`: A key without exactly one colon is ignored: the record keeps its source and number.
* C67 `C67_texts_false`: Texts that XML Schema gives a meaning of its own are read otherwise: the Boolean `1` is read as false, the Int32 `010` as eight, and an Int8 out of range as the nearest one in range, without an error.
* C67 `C67_escape_false`: Escapes are not undone: the value `a&b`, written `a&amp;b`, is read as `a&amp;b`.
* C67 `C67_prefix_false`: With two prefixes for the namespace, the columns depend on the order in which Go walks a map: either prefix may be found, and with one of them the column is there while with the other it is not.
* C68 `C68_equals_false`: A value with an equals sign is ignored: every child with the attribute is selected.
* C68 `C68_empty_false`: The empty value is not found: the quotes are compared, too.
* C68 `C68_any_attribute_false`: `name[@*]` also selects elements without any attribute.
* C69 `C69_precedence_false`: The documented precedence does not hold: `+` and `*` group from the left, so do `OR` and `AND`, `=` and `<`.
* C69 `C69_and_or_false`: 
* C69 `C69_comparison_false`: 
* C69 `C69_suffix_false`: A suffix does not apply to a comparison before it, though the grammar documents it as binding less tightly.
* C71 `C71_integer_false`: Not every integer literal denotes the number its digits write: `010` is 8.
* C72 `C72_string_false`: A doubled quote in a string literal is not undone: `'it''s'` keeps both quotes.
* C72 `C72_name_false`: Brackets and backquotes are taken as part of the name they delimit: `[A]` is not the column A.
* C73 `C73_three_valued_false`: Refuted: in SQL `false AND NULL` is false and `true OR NULL` is true; here both are null.
* C73 `C73_short_circuit_false`: Refuted: the right operand is evaluated even when the left one already decides. A failure or a panic there is the outcome, so `x <> 0 AND 1 / x > 0` does not guard the division.
* C73 `C73_boolean_product_false`: Refuted: two booleans can be added and subtracted but neither multiplied nor divided, and `%` on them is an error too, although a derived type exists for all of these.
* C73 `C73_join_false`: Refuted: a `Guid` or `DateTime` can stand on the right of a `+` with a text but not on the left.
* C74 `C74_len_false`: Refuted: Len counts bytes. The text `é` has one character and its length is given as 2.
* C74 `C74_reverse_false`: Refuted: a byte that is no UTF-8 comes back as the three bytes of U+FFFD.
* C74 `C74_trim_ends_false`: Refuted: a no-break space (U+00A0) at the start is removed by Trim but not by TrimLeft, at the end not by TrimRight.
* C74 `C74_trim_loses`: Refuted: TrimLeft and TrimRight remove characters that are no white space: U+FFFD, and every byte that is no UTF-8.
* C75 `C75_ignore_case_false`: Refuted: letter case aside the replacement is a template. Of `$5` nothing remains, `$$` gives one dollar sign and `$0` the text that was to be replaced, whereas all three are put in as they are when letter case matters.
* C76 `C76_abs_false`: Refuted: Abs of the smallest number of a type is that negative number itself.
* C76 `C76_convert_false`: Refuted: any text that starts with the letters of a number type is taken for one, such as `Interval` or `Floating`.
* C77 `C77_text_false`: Refuted: a text that is no date is not refused; the function works on with what the parser returns beside its error, which is the date 1 January of year 1.
* C78 `C78_overflow_false`: Refuted: three million hours are more nanoseconds than a `time.Duration` holds. The date goes back by about 242 years instead of forward by 342.
* C78 `C78_months_false`: Refuted: a month after 31 January is in March.
* C78 `C78_leap_false`: Refuted: a year after 29 February is 1 March, and going back a year from there does not lead back.
* C79 `C79_undo_months_false`: Refuted: one month after 31 January is two months away.
* C79 `C79_elapsed_false`: Refuted: years and months are not counted as they pass: from the last day of a year to the first of the next it is one year, as it is from the first to the last day of the next.
* C79 `C79_milliseconds_false`: Refuted: thirty days come out as a negative number of milliseconds.
* C79 `C79_saturates_false`: Refuted: from dates more than 292 years before another, the differences are all the same, in every interval but years and months.
* C79 `C79_nanoseconds_false`: 2,000,000 hours less one nanosecond (228 years) are told as 2,000,000 hours.
* C81 `C81_word_false`: Not every word stands for itself: before a colon and a number it is part of a measurement key, and so is what is written with `-` before it.
* C82 `C82_guid_false`: A GUID of 32 digits without dashes or delimiters need not be one: decimal digits are an integer, and a word is an identifier.
* C83 `C83_string_false`: Not every text in quotes is a string: one of 32 hexadecimal digits is a GUID.
* C84 `C84_minus_false`: Two minus signs are not two operators: the rest of the line is a comment, so that `5--3` is `5`.
* C84 `C84_line_comment_false`: Not every `--` starts a comment: `--a:1` at the end of a line is a measurement key, as long as the comment and of an earlier rule.
* C85 `C85_append_false`: A comment that is open takes what follows: the sort order behind it is lost.
* C85 `C85_key_false`: Measurement keys that begin with `#` are not, as one more `#` makes a date of them.
* C88 `C88_case_false`: A name for the primary table in other letters makes `SelectSignalIDSet` an error, though it finds the table: the field names are kept under the name given and looked up under the table's own.
* C88 `C88_top_false`: A limit in hexadecimal digits is ignored: the grammar takes it, `Atoi` does not, and all rows are selected.
* C89 `C89_comment_false`: A filter that ends in a comment loses the sort order: the text of the order becomes part of the comment.
* C93 `C93_infinity_false`: What the library writes for plus infinity gets a separator: `+,Inf`.
* C94 `C94_ipv6_false`: The brackets are taken off and not put back, so whenever the host has a colon the text given to the network is no address, and the connection fails.
* C94 `C94_redial_false`: The connector stays canceled, so that every later `Dial` returns "connection canceled" without an attempt to connect, for every address and configuration.
* C95 `C95_nil_false`: The one given before stays in use. The documentation says "set value to nil for default values".
* C95 `C95_auto_reconnect_false`: After a dial with it, a dial without it still reconnects. A first dial that reaches nobody, a second one with `AutoReconnect` off that succeeds, a lost connection: the next attempt to reconnect sends the modes again.
* C96 `C96_udp_modes_false`: The modes sent before announced compressed data, which is left out for UDP otherwise (DataSubscriber.go L1545-1547), and are not sent again.
* C97 `C97_reconnect_false`: Without metadata, with automatic subscription and protocol version 2 or above, the new connection is not subscribed. `Subscribe` runs before the publisher has sent anything, when the new connection is not validated, and its error is dropped; nothing the publisher sends later leads to a subscription.
* C97 `C97_twice_false`: It leaves its callback behind, so that the next dial requests the metadata twice.
* C98 `C98_lost_false`: Two calls with payloads of the same size can overlap so that the peer reads the second one twice and the first one never.
* C98 `C98_garbled_false`: They can overlap so that what the peer gets for the first is not its packet.
* C99 `C99_delimiters_false`: Any two bytes around the text are taken for braces.
* C99 `C99_error_false`: A text that is no Guid still gives one, made of the bytes read so far. `ValueExpression.Convert` and the XML reader use it (ValueExpression.go L556, DataSet.go L310).
* C101 `C101_decimal_fractions_false`: 0.1 + 0.2 in doubles is not the double nearest to 0.3.
* C103 `C103_equal_false`: The Int64 2^53 + 1 is found equal to the Double 2^53.
* C104 `C104_double_false`: The double nearest to 0.0000001 is written as 0.000000.
* C107 `C107_short_datagram_panics`: One of fewer than six bytes, from any sender, ends the program.
* C107 `C107_long_datagram_panics`: UDP carries up to 65507 bytes, but a compact packet of more than 1926 measurements with full times is cut off within a time and ends the program, whatever the measurements are.
* C107 `C107_lost_block_loses`: After `k` blocks of a run one is lost, and from then on none of the blocks that do arrive is decoded, up to 65534 of them; for each the application is handed as many measurements that were never sent: what the pooled slice held before, or made-up ones.
* C108 `C108_stale_send_deadlock_false`: C108, false as stated: a command that fails late leaves the subscriber in a state from which no schedule whatsoever ever gets the disconnect thread or the reconnect thread any further: there is no reconnect.
* C108 `C108_mutual_join_deadlock_false`: C108, false as stated: the two threads join each other.
* C108 `C108_assignment_deadlock_false`: C108, false as stated: with no failure noticed late, but a user assigning a callback of the `DataSubscriber` at a bad moment, the user, the reconnect thread and the disconnect thread wait for each other for ever.
* C108 `C108_connect_in_callback_hangs_false`: C108, false as stated (for every state that can be reached): the comment of `dispatchConnectionTerminated` promises that a user can reconnect in the connection terminated callback without a goroutine of their own. A callback that calls `Connect` never returns, since `Connect` waits for the disconnect thread that is running the callback; nor is the disconnect ever over.
* C109 `C109_logger_late_false`: "Assignment will take effect immediately, even while subscription is active" (Subscriber.go L728-737), but a logger assigned while connected gets none of the messages of the transport layer: they still go to the one before, until the next `Dial` or `Listen`.
* C109 `C109_subscription_updated_panics`: `SetSubscriptionUpdatedReceiver` (Subscriber.go L757-761) locks another mutex than the dispatch (DataSubscriber.go L1096-1102), so nil can be assigned between the test and the call, and the process ends with a panic.
* C109 `C109_notification_after_set_false`: They are handed over by `go` (DataSubscriber.go L1479), so after `SetNotificationReceiver` has returned, the receiver assigned before it can still be called, for the first time.
* C109 `C109_go_any_order_false`: Every order of delivery is possible, whatever the order in which the events came. Notifications may be received in the wrong order, and of two signal index caches the older one may be handed over last.
* C110 `C110_null_false`: The text of the string `<NULL>` is that of null, and the text of the empty string is that of an error.
* C110 `C110_computed_null_false`: A String shows as the empty text and an Int32 as 0, not as `<NULL>`.
* C110 `C110_row_false`: Different rows have the same text.
* C110 `C110_set_false`: Go walks its tables in any order, and the order shows.
* C111 `C111_flags_false`: A timestamp flagged as the leap second has the text of the one that is not.
* C111 `C111_year_false`: The first documented timestamp, 1 January of year 1, and the last, 31 December 9999, have the texts of other times.
* C111 `C111_measurement_day_false`: Measurements a day apart, and values a thousandth apart, have the same text.
* C112 `C112_round_trip_false`: A date with milliseconds loses them when it is written.
* C112 `C112_year_false`: They are written, but not read.
* C112 `C112_zone_false`: Such a field is loaded as 1 January of year 1, without an error.
* C113 `C113_next_false`: C113, false as stated: when a publisher connects right after another has left, the disconnect thread closes the new connection instead of the old one and waits for ever for the new response goroutine, which spins. From then on, whatever happens, no packet is processed, no publisher is served, and `Disconnect` does nothing.
* C113 `C113_disconnect_false`: C113, false as stated: a `Disconnect` while a publisher connects may never end: the disconnect thread holds the mutex the accept thread waits for and waits for the accept thread. The publisher is neither served nor hung up on.
* C113 `C113_stale_termination_false`: C113, false as stated: a termination that is due from the connection before ends the connection of a publisher that has not left.
* C113 `C113_two_readers_false`: C113, false as stated: the response goroutines of two connections can read from one connection at the same time: the old one tests the flag of the new connection.
* C114 `C114_twice_false`: C114 does not hold for applications that give a slice back twice: the next two packets are handed in one and the same slice, and the second changes the measurements of the first while the application has them.
* C115 `C115_escape_false`: C115 is false for texts with characters that XML escapes: the description `R&D`, as written into the document, is looked up as `R&amp;D`.
* C116 `C116_defined_false`: C116 (defined) is false of one command: the command for confirming base times has no case (transport/Constants.go L349-412).
* C117 `C117_late_false`: `Close` does not wait: it may have returned with the connection open, nothing told to the application, and a packet handed over afterwards.
* C117 `C117_crash_false`: A publisher that leaves while the subscriber is closed: two disconnect threads run at once, one takes the response goroutine away between the other's test for it and its use, and the program ends with a nil pointer dereference.
* C117 `C117_race_false`: `Close` called during `Dial`, between the connection being made and the flag being set: after this schedule `Close` never returns, whatever happens next, and the application is never told; the response goroutine does not end either.
* C117 `C117_unseen_false`: 
* C117 `C117_told_twice_false`: Refuted: the application is told once that the connection is terminated, for a publisher that leaves while nobody calls `Close`. It may be told twice.
* C118 `C118_changed_false`: C118 is false when a publisher changes a key without metadata: the record of the signal keeps the key of the first cache, while the second, now in use, has another.
* C121 `C121_length_false`: C121 is false: no cache decoded from a buffer of fewer than 2^32 bytes has the length of its wire form.
* C122 `C122_later_column_panics`: C122 (later columns) is false of the new column: every row made before a column was added ends the program when the column is read, through any reader, or stored to.
* C122 `C122_late_copy_panics`: A copy made after the column was added, from a row made before, ends the program as well.
* C122 `C122_circle_panics`: C122 (copy) is false of columns computed from themselves: copying a row ends the program, though the copy needs no value of the column.
* C123 `C123_disconnect_false`: `Subscribe` twice, for the same port, before the answer to the first; the second cannot open the port, as the first still has it, and from then on nobody closes it: `Disconnect` does not return until another datagram arrives, whatever else happens. (Unless closing the nil pointer left by the second ends the program before.)
* C123 `C123_disconnect_panics`: … and where `Close` of a nil pointer panics, `Disconnect` ends the program.
* C123 `C123_socket_false`: `Subscribe` for one port and, before the answer, for another; `Disconnect` then leaves the first socket open, and what arrives there is still processed, after the connection has ended and in the next one.
* C123 `C123_reports_false`: `Unsubscribe` closes the socket but keeps it, so that `Disconnect` closes it again and reports an error where nothing is wrong.
* C126 `C126_again_false`: A second `Evaluate` does not give what a new parser gives, for the same text, data and settings: rows are found the first time only.
* C126 `C126_error_false`: An error is not reported again: the first `Evaluate` refuses the text, the second reports success.
* C126 `C126_refused_false`: A refused text has trees the next time, which is a tree that selects all rows for a text that is not valid.
* C127 `C127_moment_false`: An update does not take effect at one moment: a packet decoded meanwhile is dated partly with the base times before and partly with those after the update.
* C128 `C128_stop_false`: C128 is false, with a run: a reader is set up, a batch of two arrives, the application reads one of them and no more, then disconnects and sets up another reader. Whatever happens from then on, other than calls of the first reader, the connection is never closed and the second reader never set up; and when the first reader is closed instead, the program ends.
* C129 `C129_padding_panics`: A block whose bits fill whole bytes needs none, and decodes without it (C13). Padded by three bytes 3 (PKCS #7) and enciphered, its padding is decoded as two more measurements. The slice has room for one: every subscriber, whatever its state, panics.
* C131 `C131_ignored`: What stands behind a filter expression is ignored: if a filter expression does not end in a semicolon nor in an open comment, then with a blank and any text behind it whose first token cannot go on it gives what it gives alone.
* C131 `C131_refused_false`: A text that is no filter expression is not refused: an operator forgotten between two conditions leaves the first one.
* C131 `C131_select_loses`: `Select` loses the sort order when the filter given to it ends in such a text.
* C132 `C132_port_false`: Two publishers on one host have the same ID when they connect to a listening subscriber.
* C133 `C133_removed_false`: A table that is not in its data set cannot be selected from: one that was only created, or was removed.
* C133 `C133_replaced_false`: A table replaced by another of its name, in any letter case, is not selected from: the rows of the other one are given.
* C133 `C133_select_replaced_wrong`: `Select` of a table replaced reads the wrong columns: the filter is put together from the columns of the new table and evaluated on the rows of the old one. The columns are of one type, so that no error tells.
* C133 `C133_other_false`: A text that names another table selects from that one, though the table was given.
* C134 `C134_without_false`: C134 is false of the code without datagrams: the total of the data channel is then that of the command channel, with all that was no data.
* C134 `C134_falls_false`: C134 is false of the code: the total goes down during a connection when the application subscribes again, with datagrams where there were none, and up again when it goes back, by what came over the command channel.
* C135 `C135_ignored`: After `Disconnect` the subscriber stays disconnected, unless it was called from the connection terminated callback after the peer has gone: then the call does nothing, and a reconnect follows all the same.
* C135 `C135_close_false`: The property is false of the code: a `Close` within the callback for measurements that finds the disconnect thread running waits for ever.
* C135 `C135_ignored_false`: So is it of `Disconnect` in the connection terminated callback: the connection that the peer has ended is made again.
* C136 `C136_overtakes_false`: False of the code: a datagram that overtakes the announcement of its keys is deciphered with the keys before.
* C136 `C136_plain_false`: False of the code: an enciphered datagram that comes before the first announcement is taken for one that is not enciphered, whatever its contents.
* C136 `C136_crash_false`: False of the code: where the pointer is stored before the length, a datagram that meets the first announcement ends the program.
* C137 `C137_ipv6_false`: False of the code: an IPv6 address is accepted on the command line, but the address made of it is none; `Dial` and `Listen` return an error and change nothing, and of `Dial` the examples do not look at the error.
* C137 `C137_message_false`: False of the code: the message about a port quotes the host, whatever the port.
* C138 `C138_late_false`: Datagrams are not all decoded with the cache they were encoded with.
* C138 `C138_confirm_false`: "This message is sent in response to ServerResponse.UpdateBaseTimes" (Constants.go L261-263), "This verifies delivery of the cipher keys indicating that it is safe to transition to the new keys" (L267-269): neither is ever sent, whatever packets arrive, so that a publisher that waits for them never moves on.
* C139 `C139_bytes_false`: Refuted: texts with other bytes are unequal, letter case aside. All bytes that are no UTF-8 are one character.
* C139 `C139_upper_false`: Refuted: Upper and Lower keep what has no letter case. Bytes that are no UTF-8 become U+FFFD, three bytes each.
* C139 `C139_index_of_false`: Refuted: beyond ASCII it is a position in another text. `a` stands at byte 2 of a long s and `a`; with letter case aside IndexOf gives 1.
* C139 `C139_split_false`: Refuted: Split gives what stands between delimiters. With letter case aside it cuts the text where the delimiters stand in the capitals: of a long s, `a`, `X` and `b` the part before `X` lacks the `a`; and where the capitals take more bytes it panics.
* C140 `C140_value_false`: C140, not every result can be told from no match: a pattern that matches the empty text, and one that matches nowhere, both give the empty text.
* C140 `C140_longest_false`: C140, the matched text is not the longest: an alternative that matches is preferred to a later, longer one.
* C141 `C141_empty_panics`: C141, false: a packet without measurements ends the program when its turn to be shown has come.
* C141 `C141_count_false`: C141, false: the number of measurements "received so far" leaves out those that the message is about. Three have been received, and the message says two.
* C141 `C141_terminated_false`: C141, false: nothing is ever written to standard error, and for a lost connection an advanced example says that the connection is established.
* C141 `C141_end_of_input_false`: C141, false: when the input ends without such a line the program goes on for ever, subscribing to one measurement more each time.
* C142 `C142_decimal_panics`: C142, false: a text can end the program: the Double of one of these names has no Decimal.
* C142 `C142_compare_false`: C142, false: a NaN is neither less nor greater than a number nor equal to it, nor to itself; it only differs.
* C142 `C142_filter_panics`: C142, false: a text in a column can end the program: selecting the rows with this filter expression panics exactly when one of them has a text that is read as an infinity or as NaN.
* C143 `C143_clear_false`: C143, false: Clear does not empty a set with a NaN: what stays are the values not equal to themselves, all of them. (That no other operation removes one is in `C143_comparable_partial`.)
* C143 `C143_self_false`: C143, false: a set with a NaN is neither equal to, nor a subset or superset of, itself; exactly then.
* C144 `C144_refused_false`: C144, false: all others are refused, though the grammar takes them for a GUID: those with some of the dashes, and those in braces without any.
