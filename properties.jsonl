{"id": "C01", "title": "Leap-second flags never disturb the timestamp", "statement": "For every 64-bit Ticks value, setting or clearing the leap-second flag or its direction leaves TimestampValue unchanged, the flag queries report exactly what was last set, and a value reports a negative leap second only when both flags are set.", "quantifier": "every 64-bit Ticks value and every sequence of flag operations on it", "why_tests_cant": "There are 2^64 values; tests sample a few dates.", "anchors": ["sttp/ticks/Ticks.go: TimestampValue, SetLeapSecond, ApplyLeapSecond, SetNegativeLeapSecond, SetLeapSecondDirection, IsLeapSecond, IsNegativeLeapSecond"]}
{"id": "C02", "title": "Unix nanosecond conversions are inverse up to the 100 ns tick", "statement": "FromUnixNano followed by ToUnixNano returns the input rounded down to a multiple of 100 for every unsigned 64-bit nanosecond count; FromTime(ToTime(t)) returns the timestamp of t with leap flags dropped for every t whose time lies between the Unix epoch and the largest instant representable as signed 64-bit nanoseconds.", "quantifier": "every uint64 nanosecond count; every Ticks value (any flags) in the signed-nanosecond range after 1970", "why_tests_cant": "Overflow and mask interplay only shows at range boundaries among 2^64 inputs.", "anchors": ["sttp/ticks/Ticks.go: FromUnixNano, ToUnixNano, ToTime, FromTime"]}
{"id": "C03", "title": "Every documented Ticks value converts to the calendar time it denotes", "statement": "For every Ticks value between the documented Min (year 1) and Max (year 9999), ToTime yields the instant (value - UnixBaseOffset) * 100 ns relative to the Unix epoch and FromTime inverts it.", "quantifier": "every Ticks value between Min and Max", "why_tests_cant": "The range spans 3.1e18 values and fails only outside 1677..2262, or before 1970 for FromTime, where tests do not look.", "anchors": ["sttp/ticks/Ticks.go: ToTime, FromTime, Min, Max"]}
{"id": "C04", "title": "Guid byte serialization round-trips in both byte orders", "statement": "For every Guid and either endianness flag, FromBytes(ToBytes(g, e), e) = g; FromBytes reads exactly the first 16 bytes of any longer slice and fails with an error exactly when fewer than 16 bytes are given; the two byte orders are related by an involution.", "quantifier": "every Guid, both flags, every byte slice of any length", "why_tests_cant": "2^128 values and unbounded slices.", "anchors": ["sttp/guid/Guid.go: FromBytes, ToBytes, swapGuidEndianness"]}
{"id": "C05", "title": "Guid.Compare is a total order compatible with equality", "statement": "Compare returns 0 exactly on equal Guids, is antisymmetric and transitive, and agrees with lexicographic order of the 16 RFC-order bytes.", "quantifier": "all pairs and triples of Guids", "why_tests_cant": "Order laws quantify over pairs and triples of 2^128 values.", "anchors": ["sttp/guid/Guid.go: Compare, Components, result"]}
{"id": "C06", "title": "HashSet mutations implement mathematical set operations", "statement": "After any sequence of Add, Remove, RemoveWhere, Clear, UnionWith, IntersectWith, ExceptWith and (for duplicate-free arguments) SymmetricExceptWith, membership and length equal those of the mathematical set computed by the corresponding set operations, and Add/Remove/RemoveWhere return values report exactly what changed.", "quantifier": "all sequences of operations, all argument slices, any element type", "why_tests_cant": "Unbounded histories and argument slices.", "anchors": ["sttp/hashset/HashSet.go: Add, Remove, RemoveWhere, Clear, UnionWith, IntersectWith, ExceptWith, SymmetricExceptWith"]}
{"id": "C07", "title": "HashSet relations decide the mathematical relations", "statement": "SetEquals, Overlaps, IsSubsetOf, IsProperSubsetOf, IsSupersetOf and IsProperSupersetOf return true exactly when the receiver and the set of elements of the argument stand in that relation.", "quantifier": "all receivers and all argument slices, including slices with repeated elements, and empty sets", "why_tests_cant": "Corner cases (empty receiver, repeated elements) are infinitely many and easily missed.", "anchors": ["sttp/hashset/HashSet.go: SetEquals, Overlaps, IsSubsetOf, IsProperSubsetOf, IsSupersetOf, IsProperSupersetOf"]}
{"id": "C08", "title": "Digit grouping loses nothing and groups by three", "statement": "For every integer and every separator byte that is neither a digit nor '-', removing the separators from Int64With/UInt64With output gives the plain decimal rendering, and every separator is followed by a multiple of three digits with at most three digits between separators; formatting never panics.", "quantifier": "all int64/uint64 values and all separators", "why_tests_cant": "2^64 inputs; buffer index arithmetic must never go out of range.", "anchors": ["sttp/format/Common.go: formatNumber", "sttp/format/Int.go: Int64With", "sttp/format/UInt.go: UInt64With"]}
{"id": "C09", "title": "Thread runs its function once per start and Join waits for it", "statement": "Under every interleaving of Start, TryStart and Join callers with the launched goroutine, two executions of the same Thread never overlap, and a Join issued after Start returned does not return before that execution completed.", "quantifier": "all schedules of any number of callers", "why_tests_cant": "Depends on the interleaving of goroutines.", "anchors": ["sttp/thread/Thread.go: Start, TryStart, Join, run"]}
{"id": "C10", "title": "TSSC command words survive the adaptive code", "statement": "For every sequence of 5-bit command words, the bits produced by the code writer from the initial per-point state are read back by the code reader as exactly the same words, with nothing left over, no matter how the statistics-driven code adapts in between.", "quantifier": "all command sequences of any length", "why_tests_cant": "Adaptation depends on the whole history; number of histories is exponential.", "anchors": ["sttp/transport/tssc/PointMetadata.go: WriteCode, ReadCode, UpdatedCodeStatistics, adaptCommands"]}
{"id": "C11", "title": "The TSSC adaptive state never leaves its legal range", "statement": "From the initial state, after any sequence of command words the code mode is 1..4, the short-code assignments are valid command words, the byte-wide counters never wrap, and neither reading nor writing ever reports a coding error.", "quantifier": "all command histories", "why_tests_cant": "Needs an inductive invariant over unbounded histories.", "anchors": ["sttp/transport/tssc/PointMetadata.go: adaptCommands, updatedCodeStatistics, ReadCode, WriteCode"]}
{"id": "C12", "title": "7-bit variable-length integers decode to the encoded value", "statement": "For every 32-bit and every 64-bit unsigned value, decoding its 7-bit-group encoding followed by arbitrary bytes yields the value and advances by exactly the encoded length.", "quantifier": "all uint32 and uint64 values, all trailing bytes", "why_tests_cant": "2^64 values times arbitrary suffixes.", "anchors": ["sttp/transport/tssc/Decoder.go: decode7BitUInt32, decode7BitUInt64"]}
{"id": "C13", "title": "A TSSC stream decodes to exactly the measurements that were encoded", "statement": "For every sequence of measurements (any point ids, timestamps, quality flags and 32-bit value patterns), split into any sequence of blocks, decoding the protocol encoding block by block returns exactly those measurements in order and then signals end of data for each block.", "quantifier": "all measurement sequences, all block boundaries, both sides starting from the initial state", "why_tests_cant": "The state space is unbounded: history-dependent deltas, rolling values and adaptive codes.", "anchors": ["sttp/transport/tssc/Decoder.go: TryGetMeasurement, decodePointID, decodeTimestamp, decodeStateFlags, readBit, readBits4, readBits5", "sttp/transport/tssc/PointMetadata.go"]}
{"id": "C14", "title": "Malformed TSSC data is reported as an error, never a crash", "statement": "For every byte buffer, asking the decoder for the next measurement either returns a measurement, signals end of data or returns an error; each returned measurement consumes input, so a buffer yields finitely many.", "quantifier": "all byte buffers and decoder states", "why_tests_cant": "Fuzzing samples; the claim is about all byte strings.", "anchors": ["sttp/transport/tssc/Decoder.go: TryGetMeasurement, SetBuffer"]}
{"id": "C15", "title": "A signal index cache decodes to the records that were serialized", "statement": "For every subscriber id and every list of records (runtime index, signal Guid, source text, 64-bit id), decoding the wire image gives back that subscriber id and answers every lookup with the serialized record, the last record winning when an index repeats.", "quantifier": "all record lists whose wire image length fits 32 bits, any trailing bytes", "why_tests_cant": "Unbounded record lists with variable-length text.", "anchors": ["sttp/transport/SignalIndexCache.go: decode, addRecord, Record, SignalID, Source, ID"]}
{"id": "C16", "title": "Signal index lookups are consistent in both directions", "statement": "For caches in which no signal appears under two indexes, SignalIndex(SignalID(i)) = i for every contained index, SignalID(SignalIndex(s)) = s for every contained signal, Contains/Record/SignalID agree, Count is the number of distinct indexes, and misses return the documented sentinels.", "quantifier": "all histories of added records, all lookup keys", "why_tests_cant": "Unbounded histories and 2^160 keys.", "anchors": ["sttp/transport/SignalIndexCache.go: Contains, SignalID, SignalIDs, Source, ID, Record, SignalIndex, Count, addRecord"]}
{"id": "C17", "title": "A corrupt signal index cache is rejected with an error", "statement": "For every byte buffer, decoding a signal index cache returns either success or an error and never panics.", "quantifier": "all byte buffers", "why_tests_cant": "All byte strings, all truncation points.", "anchors": ["sttp/transport/SignalIndexCache.go: decode"]}
{"id": "C18", "title": "Compact state flags convert faithfully", "statement": "Mapping compact quality bits to full measurement flags and back is the identity on the six quality bits; mapping full flags to compact sets each compact bit exactly when a full flag of its class is set; the calculated, discarded, time-quality, data-quality and system-issue classes are pairwise disjoint.", "quantifier": "all 2^8 compact bytes and all 2^32 full flag words", "why_tests_cant": "2^32 flag words.", "anchors": ["sttp/transport/CompactMeasurement.go: mapToFullFlags, mapToCompactFlags"]}
{"id": "C19", "title": "A compact measurement decodes to what was encoded", "statement": "For every signal known to the cache, every value bit pattern, quality bits, and timestamp representable in the selected time format (none, 2-byte ms, 4-byte ticks, 8-byte full), decoding the wire image followed by arbitrary bytes yields the same signal id, value, flags and timestamp (to the format's resolution) and reports exactly the bytes consumed.", "quantifier": "all measurements, base-time configurations, time formats and trailing bytes", "why_tests_cant": "Combines 2^32 values, 2^64 timestamps and configuration state.", "anchors": ["sttp/transport/CompactMeasurement.go: Decode, GetBinaryLength, GetTimestampC2, GetTimestampC4, SetCompactStateFlags"]}
{"id": "C20", "title": "A truncated compact measurement is rejected with an error", "statement": "For every byte buffer, decoding one compact measurement returns a consumed length or an error and never panics.", "quantifier": "all buffers, cache contents and base-time configurations", "why_tests_cant": "All truncation points of all buffers.", "anchors": ["sttp/transport/CompactMeasurement.go: Decode"]}
{"id": "C21", "title": "Commands are framed so the peer can split the stream", "statement": "For every sequence of commands and payloads sent, the byte stream written is parsed by the protocol's framing (big-endian length, command byte, payload) back into exactly that sequence; sending never panics.", "quantifier": "all command sequences and payload sizes", "why_tests_cant": "Unbounded sequences and sizes, including sizes beyond the internal buffer.", "anchors": ["sttp/transport/DataSubscriber.go: SendServerCommand, SendServerCommandWithPayload"]}
{"id": "C22", "title": "Received packets do not depend on how TCP chunks the stream", "statement": "For every sequence of server packets and every way of cutting their concatenation into reads, the packets handed to response processing are exactly the ones sent, in order, and an incomplete tail is never processed.", "quantifier": "all packet sequences and all chunkings", "why_tests_cant": "Exponentially many chunkings.", "anchors": ["sttp/transport/DataSubscriber.go: readPayloadHeader, readPacket, runCommandChannelResponseThread"]}
{"id": "C23", "title": "An unvalidated peer cannot get packets processed", "statement": "On every new connection using protocol version 2 or later, until the peer has answered the operational-modes negotiation, oversized packets end the connection and no response other than the handshake has an effect.", "quantifier": "all connection histories and all packet sequences", "why_tests_cant": "Needs all histories, including the very first connection and reconnects.", "anchors": ["sttp/transport/DataSubscriber.go: NewDataSubscriber, setupConnection, disconnect, readPayloadHeader, processServerResponse, handleSucceeded, handleFailed"]}
{"id": "C24", "title": "Only measurements actually decoded from a packet are delivered", "statement": "For every data packet, the measurements passed to the NewMeasurements callback are exactly those decoded from that packet: none are invented when the packet is out of sequence, corrupt or refers to a missing cache, and none are left over from earlier packets.", "quantifier": "all packet contents, cache states and pool states", "why_tests_cant": "Depends on error paths and reuse history.", "anchors": ["sttp/transport/DataSubscriber.go: handleDataPacket, parseTSSCMeasurements, parseCompactMeasurements"]}
{"id": "C25", "title": "TSSC sequence numbers keep publisher and subscriber in step", "statement": "For a publisher that numbers blocks 0,1,...,65535,1,2,... the subscriber accepts every block for arbitrarily long sessions; an unexpected number leaves the decoder untouched until a block numbered 0 restarts it.", "quantifier": "all session lengths, all interleavings of lost or repeated blocks", "why_tests_cant": "Wrap-around needs 65536 blocks; loss patterns are unbounded.", "anchors": ["sttp/transport/DataSubscriber.go: parseTSSCMeasurements", "sttp/transport/tssc/Decoder.go: SequenceNumber"]}
{"id": "C26", "title": "Received-byte and measurement totals add up", "statement": "After any history, TotalMeasurementsReceived is the number of measurements handed to the application since the last subscription (or connection), and TotalCommandChannelBytesReceived is the sum of the sizes of the packets accepted since the connection was set up (both modulo 2^64, the width of the counters).", "quantifier": "all packet histories", "why_tests_cant": "Unbounded histories.", "anchors": ["sttp/transport/DataSubscriber.go: handleDataPacket, readPacket, setupConnection, TotalMeasurementsReceived, TotalCommandChannelBytesReceived"]}
{"id": "C27", "title": "Base-time updates take effect exactly as announced", "statement": "After any sequence of base-time updates, a compact measurement with a 2- or 4-byte time decodes against the base time selected by its own time-index bit and never against the other one; an update does not alter already delivered timestamps.", "quantifier": "all update sequences and all subsequent measurements", "why_tests_cant": "History dependent.", "anchors": ["sttp/transport/DataSubscriber.go: handleUpdateBaseTimes", "sttp/transport/CompactMeasurement.go: Decode"]}
{"id": "C28", "title": "Signal index cache updates are double buffered", "statement": "For protocol versions after 1, an update replaces only the cache half it names, data packets are decoded with the cache half they name, every update is confirmed, and for version 1 there is a single cache.", "quantifier": "all sequences of updates and data packets", "why_tests_cant": "All interleavings of updates and packets.", "anchors": ["sttp/transport/DataSubscriber.go: handleUpdateSignalIndexCache, handleDataPacket, handleSubscriptionInfo, ActiveSignalIndexCache"]}
{"id": "C29", "title": "Buffer blocks arrive in order, exactly once, with their payload", "statement": "For every arrival order, loss and retransmission pattern in which every block is eventually received, the NewBufferBlocks callback receives each block exactly once, in sequence order, with its original payload, and each received block is confirmed.", "quantifier": "all arrival orders, duplications and payloads", "why_tests_cant": "Factorially many arrival orders and unbounded sessions.", "anchors": ["sttp/transport/DataSubscriber.go: handleBufferBlock", "sttp/transport/BufferBlock.go: BufferBlock"]}
{"id": "C30", "title": "Every acknowledged response is acknowledged with the right token", "statement": "For every received buffer block and notification, the confirmation command carries back exactly the 4 token bytes (sequence number or hash) of that response.", "quantifier": "all packets", "why_tests_cant": "All token values and payload lengths including short ones.", "anchors": ["sttp/transport/DataSubscriber.go: handleBufferBlock, handleNotification"]}
{"id": "C31", "title": "Operational modes announce exactly the configured options", "statement": "For every combination of version, compression and encoding options, the announced 32-bit operational-mode word decodes back to the configured protocol version, string encoding and compression choices, the fields do not overlap, and the word is sent big-endian.", "quantifier": "all option combinations and version bytes", "why_tests_cant": "All combinations of flags and 256 versions.", "anchors": ["sttp/transport/DataSubscriber.go: sendOperationalModes", "sttp/transport/Constants.go: OperationalModes"]}
{"id": "C32", "title": "Subscription parameters survive the connection string", "statement": "For every subscription whose text fields contain no ';', the connection string sent with Subscribe parses back as key=value pairs to the requested settings.", "quantifier": "all subscription settings", "why_tests_cant": "Unbounded text and all option combinations.", "anchors": ["sttp/transport/DataSubscriber.go: Subscribe", "sttp/transport/SubscriptionInfo.go"]}
{"id": "C33", "title": "Automatic reconnection honours the retry limit", "statement": "For every configuration with a non-negative MaxRetries and an unreachable host, the number of connection attempts made by Connect/auto-reconnect is finite and at most MaxRetries + 1, after which failure is reported.", "quantifier": "all retry configurations and all dial outcomes", "why_tests_cant": "Requires unbounded runs with all outcome sequences.", "anchors": ["sttp/transport/SubscriberConnector.go: connect, autoReconnect, waitForRetry, ResetConnection", "sttp/transport/DataSubscriber.go: connect"]}
{"id": "C34", "title": "Reconnect delays back off and respect the maximum", "statement": "For every positive retry interval not above the configured maximum, every wait is positive and never exceeds the maximum, and the delay never decreases from one attempt to the next.", "quantifier": "all intervals, maxima and attempt counts", "why_tests_cant": "32-bit overflow in the exponential shows only for certain combinations.", "anchors": ["sttp/transport/SubscriberConnector.go: waitForRetry"]}
{"id": "C35", "title": "Cancel stops reconnection", "statement": "Under every schedule, once Cancel is called no new connection attempt starts afterwards and Cancel returns.", "quantifier": "all schedules of Cancel, the retry timer and the reconnect goroutine", "why_tests_cant": "Schedule dependent.", "anchors": ["sttp/transport/SubscriberConnector.go: Cancel, waitForRetry, connect, autoReconnect"]}
{"id": "C36", "title": "Connection state flags and termination callbacks stay consistent", "statement": "Over every history of connect, subscribe, unsubscribe, disconnect, peer failure and dispose, the subscriber is never reported subscribed after a disconnect completed and the connection-terminated callback fires at most once per established connection.", "quantifier": "all operation histories", "why_tests_cant": "Unbounded histories.", "anchors": ["sttp/transport/DataSubscriber.go: connect, establishConnection, Subscribe, Unsubscribe, disconnect, runDisconnectThread, Dispose, dispatchConnectionTerminated"]}
{"id": "C37", "title": "All callers share one metadata record per signal", "statement": "Under every schedule of concurrent LookupMetadata calls for the same signal, all callers receive the same record object.", "quantifier": "all schedules and any number of callers", "why_tests_cant": "Race between check and store.", "anchors": ["sttp/transport/DataSubscriber.go: LookupMetadata, Metadata"]}
{"id": "C38", "title": "The measurement reader delivers every measurement once, in order", "statement": "For every sequence of received measurement batches read through MeasurementReader, NextMeasurement returns exactly the concatenation of the batches in order, and closing the reader never crashes the producer.", "quantifier": "all batch sequences and schedules of reader, producer and Close", "why_tests_cant": "Schedule dependent.", "anchors": ["sttp/MeasurementReader.go: NextMeasurement, receivedNewMeasurements, Close"]}
{"id": "C39", "title": "Callback synchronisation cannot deadlock", "statement": "Under every schedule, callbacks that call back into the API while callback assignment is in progress elsewhere always finish.", "quantifier": "all schedules of callback dispatch, nested dispatch and assignment", "why_tests_cant": "Needs a specific interleaving with a pending writer.", "anchors": ["sttp/transport/DataSubscriber.go: BeginCallbackAssignment, BeginCallbackSync, establishConnection, runDisconnectThread", "sttp/transport/SubscriberConnector.go: autoReconnect, connect"]}
{"id": "C40", "title": "Column and table lookup is case-insensitive and stable", "statement": "After any sequence of AddColumn/AddTable calls, looking up a name in any letter case returns the most recently added entry with that name ignoring case, indexes are positions of addition, and unknown names return nil.", "quantifier": "all sequences of additions and all names", "why_tests_cant": "Unbounded histories and names.", "anchors": ["sttp/data/DataTable.go: AddColumn, ColumnByName, Column, ColumnIndex", "sttp/data/DataSet.go: AddTable, Table, RemoveTable"]}
{"id": "C41", "title": "Row limits are respected", "statement": "For every predicate and limit, RowsWhere and RowsWhere-style selection return the first `limit` matching rows in table order (all of them when the limit is negative), and no more.", "quantifier": "all tables, predicates and limits including 0", "why_tests_cant": "All limits including the 0 boundary and all predicates.", "anchors": ["sttp/data/DataTable.go: RowsWhere, Select, RowWhere"]}
{"id": "C42", "title": "Filtering returns exactly the matching rows in order", "statement": "Without ORDER BY, evaluating a boolean filter over a table returns exactly the rows for which the expression is true, in table order, cut off at the TOP limit; rows with a NULL result are excluded.", "quantifier": "all tables, rows and boolean expressions", "why_tests_cant": "All expressions over all tables.", "anchors": ["sttp/data/ExpressionTree.go: Select, SelectWhere, Evaluate"]}
{"id": "C43", "title": "TOP with ORDER BY returns the first rows of the sorted result", "statement": "For every filter with ORDER BY and TOP n, the result is the first n rows of the full matching set sorted by the ordering terms.", "quantifier": "all tables, orderings and limits", "why_tests_cant": "Needs tables whose order differs from the sort order.", "anchors": ["sttp/data/ExpressionTree.go: SelectWhere", "sttp/data/FilterExpressionParser.go: EnterFilterStatement"]}
{"id": "C44", "title": "ORDER BY is a consistent ordering", "statement": "The row comparison used by ORDER BY is a strict weak order for every list of ordering terms (nulls first when ascending), so sorting yields a permutation of the matches with no adjacent pair out of order.", "quantifier": "all rows, column types (NaN-free floats) and term lists", "why_tests_cant": "Order laws quantify over all triples of rows.", "anchors": ["sttp/data/DataRow.go: CompareDataRowColumns, nullCompare", "sttp/data/ExpressionTree.go: SelectWhere"]}
{"id": "C45", "title": "NULL propagates and a NULL filter result means no match", "statement": "Every arithmetic, bitwise and comparison operator returns NULL when an operand is NULL, AND/OR/NOT propagate NULL, IS NULL decides nullness, and a Select whose expression evaluates to NULL for a row excludes that row without failing.", "quantifier": "all operators, operand types and rows", "why_tests_cant": "All combinations of operator, types and null placement inside arbitrary expressions.", "anchors": ["sttp/data/ExpressionTree.go: multiplyOp..notEqualOp, andOp, orOp, isNullOp, evaluateUnary, Select"]}
{"id": "C46", "title": "Operand type promotion is total, symmetric and respected", "statement": "For every operator and pair of operand value types, the derived operation type is the same in either operand order, is an error exactly for combinations the operator does not support, and a non-null result of the operation has that type (Boolean for comparisons); evaluation never panics.", "quantifier": "all operators, all type pairs, all values including zero divisors", "why_tests_cant": "Table of 27 operators x 81 type pairs times all values.", "anchors": ["sttp/data/Constants.go: deriveOperationValueType and the derive*OperationValueType functions", "sttp/data/ExpressionTree.go: evaluateOperator and operator functions"]}
{"id": "C47", "title": "Comparison operators are mutually consistent", "statement": "For non-null operands of the same type (NaN excluded), exactly one of <, =, > holds, <= is < or =, >= is > or =, != is the negation of =, for case-exact and case-insensitive text alike.", "quantifier": "all operand pairs of every type", "why_tests_cant": "All pairs of values.", "anchors": ["sttp/data/ExpressionTree.go: lessThanOp, lessThanOrEqualOp, greaterThanOp, greaterThanOrEqualOp, equalOp, notEqualOp"]}
{"id": "C48", "title": "IN is a disjunction of equalities", "statement": "x IN (a1..an) is true exactly when x = ai for some i, NOT IN is its negation, evaluation stops at the first match, and both yield NULL when x is NULL.", "quantifier": "all values and argument lists", "why_tests_cant": "Unbounded lists, mixed types.", "anchors": ["sttp/data/ExpressionTree.go: evaluateInList, equalOp"]}
{"id": "C49", "title": "LIKE matches exactly the texts described by its pattern", "statement": "For every text and pattern, LIKE is true exactly when the text matches the pattern with % or * at either end standing for any text, a pattern without wildcard matching only the equal text; NOT LIKE is its negation.", "quantifier": "all texts and patterns, exact and case-insensitive", "why_tests_cant": "All string pairs.", "anchors": ["sttp/data/ExpressionTree.go: likeOp, notLikeOp"]}
{"id": "C50", "title": "IIf chooses by its first argument and evaluates only the chosen branch", "statement": "IIf(c, a, b) evaluates to a when c is true and to b when c is false or NULL, for any expressions a and b.", "quantifier": "all argument expressions", "why_tests_cant": "All expressions.", "anchors": ["sttp/data/ExpressionTree.go: evaluateIIf, iif"]}
{"id": "C51", "title": "Power raises its first argument to its second", "statement": "For numeric arguments, Power(x, n) evaluates x to the n-th power in the promoted type.", "quantifier": "all numeric argument pairs", "why_tests_cant": "All value pairs.", "anchors": ["sttp/data/ExpressionTree.go: evaluatePower, power"]}
{"id": "C52", "title": "Coalesce, IsNull, MaxOf and MinOf select as documented", "statement": "Coalesce returns the first non-null argument (evaluating no later argument) and NULL when all are null; IsNull replaces a null test value by its default; MaxOf/MinOf of same-type arguments return a non-null argument no smaller/greater than every non-null argument.", "quantifier": "all argument lists", "why_tests_cant": "Unbounded lists.", "anchors": ["sttp/data/ExpressionTree.go: coalesce, isNull, maxOf, minOf"]}
{"id": "C53", "title": "Text functions index and cut text as documented without crashing", "statement": "SubStr, IndexOf, LastIndexOf, NthIndexOf, Split, StrCount, Reverse and StrCmp return what their documentation says for all texts and indexes and never panic.", "quantifier": "all texts, delimiters and indexes", "why_tests_cant": "Boundary indexes, empty texts and overlapping matches.", "anchors": ["sttp/data/ExpressionTree.go: subStr, indexOf, lastIndexOf, nthIndexOf, findNthIndex, split, splitNthIndex, strCount, reverse, strCmp"]}
{"id": "C54", "title": "Multi-statement filters return the union of their statements without duplicates", "statement": "For every list of filter statements, the filtered rows are exactly the rows selected by at least one statement, and with two or more statements no row appears twice; the same holds for signal IDs.", "quantifier": "all statement lists and tables", "why_tests_cant": "Unbounded statement lists with overlapping results.", "anchors": ["sttp/data/FilterExpressionParser.go: Evaluate, addMatchedRow, mapMatchedFieldRow, initializeSetOperations, ExitIdentifierStatement, EnterFilterExpressionStatement"]}
{"id": "C55", "title": "Computed columns read the same through every accessor", "statement": "For every row and computed column, every read accessor (by index, by name, typed) reports the value of the column's expression converted to the column type, a NULL expression result reads as NULL, and stored values can only be changed through non-computed columns.", "quantifier": "all rows, column types and expression results", "why_tests_cant": "All expression results and accessor combinations.", "anchors": ["sttp/data/DataRow.go: Value, ValueByName, getComputedValue, SetValue, validateColumnType, typed accessors"]}
{"id": "C56", "title": "Integer arithmetic and shifts follow two's-complement rules", "statement": "Int32 and Int64 +, -, *, unary minus, ~, &, |, ^ compute modulo 2^32 and 2^64; << and >> by a non-negative amount shift arithmetically and a negative amount wraps as documented, consistently for both widths.", "quantifier": "all operand pairs", "why_tests_cant": "2^128 operand pairs.", "anchors": ["sttp/data/ExpressionTree.go: addOp, subtractOp, multiplyOp, bitShiftLeftOp, bitShiftRightOp, bitwise*Op", "sttp/data/UnaryExpression.go: unaryInt32, unaryInt64"]}
{"id": "C57", "title": "Value conversion preserves what the target type can represent", "statement": "Convert to a wider numeric type and back is the identity, conversion of NULL gives NULL of the target type, conversion to the same type is the identity, and every supported conversion returns a value of the requested type without panicking.", "quantifier": "all values and type pairs", "why_tests_cant": "All values times 81 type pairs.", "anchors": ["sttp/data/ValueExpression.go: Convert, convertFromBoolean, convertFromInt32, convertFromInt64"]}
{"id": "C58", "title": "Signal kind acronyms and signal references parse back", "statement": "ParseSignalKindAcronym inverts Acronym on every kind; for every acronym without trailing confusion, kind and position, ParseSignalReference of 'ACRONYM-KKn' returns those parts; no input makes the parser panic. Four-character signal types tell kinds apart, and voltage from current phasors.", "quantifier": "all kinds, acronyms, positions and input strings", "why_tests_cant": "All strings.", "anchors": ["sttp/transport/SignalKind.go: Acronym, SignalTypeAcronym, ParseSignalKindAcronym", "sttp/transport/MeasurementMetadata.go: ParseSignalReference"]}
{"id": "C59", "title": "XML document navigation is faithful", "statement": "For every XML element tree, items are indexed by name in document order, parent/next/previous links and levels agree with the tree, and SelectNodes on a path without predicates returns exactly the elements at that path in document order; no path makes it panic.", "quantifier": "all trees and all paths", "why_tests_cant": "Unbounded trees and path strings.", "anchors": ["sttp/xml/XmlDocument.go: LoadXml, SelectNodes", "sttp/xml/XmlNode.go: traverse, Path, Item, Items"]}
{"id": "C60", "title": "Adjusted values apply adder and multiplier", "statement": "For every measurement and metadata record, the adjusted value is value * multiplier + adder, equal to the raw value when no metadata was received (multiplier 1, adder 0).", "quantifier": "all measurements and metadata states", "why_tests_cant": "History dependent on metadata lookups.", "anchors": ["sttp/transport/DataSubscriber.go: AdjustedValue, LookupMetadata"]}
{"id": "C61", "title": "The adaptive TSSC code picks the shortest code", "statement": "Whenever the code for TSSC code words is adapted, the mode and short codes chosen encode the code words counted since the previous change in the fewest bits any mode and short codes could achieve; it is adapted after 6, then 21, then every 101 code words and never in between.", "quantifier": "all code word histories", "why_tests_cant": "Depends on the whole history of code words; 32 counters, four modes.", "anchors": ["sttp/transport/tssc/PointMetadata.go: adaptCommands, updatedCodeStatistics, WriteCode"]}
{"id": "C62", "title": "State flags print as exactly their names", "statement": "For every 32-bit state flags word, String gives the names of exactly the set flags, each once, in bit order and separated by commas ('Normal' when none is set), and different words have different texts.", "quantifier": "all 2^32 flag words", "why_tests_cant": "Four billion words.", "anchors": ["sttp/transport/Constants.go: StateFlags, StateFlagsEnum.String"]}
{"id": "C63", "title": "Data packets are deciphered with the announced keys", "statement": "For every cipher, every history of a connection and every data packet: the payload is deciphered with the key and initialisation vector announced last, the odd or the even ones as the packet's cipher-index bit says, or taken as is when none were announced on this connection; if deciphering fails nothing is delivered and the connection is ended, otherwise the packet has exactly the effect of the plain packet.", "quantifier": "all ciphers, all histories, all packets", "why_tests_cant": "Histories with several key rotations and both cipher indices are unbounded.", "anchors": ["sttp/transport/DataSubscriber.go: handleUpdateCipherKeys, handleDataPacket", "sttp/transport/DataSubscriber.go: setupConnection"]}
{"id": "C64", "title": "The subscribed flag follows the server's answers", "statement": "Over every history of packets and Subscribe/Unsubscribe calls on a connection, IsSubscribed is true exactly when the last answer to a Subscribe or Unsubscribe command was a success of Subscribe; a new connection starts unsubscribed.", "quantifier": "all histories of packets and commands", "why_tests_cant": "Unbounded histories; other answers must not disturb the flag.", "anchors": ["sttp/transport/DataSubscriber.go: handleSucceeded, handleFailed, Subscribe, Unsubscribe, setupConnection, IsSubscribed"]}
{"id": "C65", "title": "The exact-match modifier of ORDER BY makes string ordering case-sensitive", "statement": "For every table, string column and pair of rows, an ORDER BY term with the BINARY (===) modifier orders the rows by their strings byte by byte, and a term without it orders them ignoring letter case.", "quantifier": "all tables, string columns, rows and ordering terms", "why_tests_cant": "All pairs of strings; the existing tests only sort upper-case strings, where both orders agree.", "anchors": ["sttp/data/FilterExpressionParser.go: EnterFilterStatement", "sttp/data/OrderByTerm.go: ExactMatch", "sttp/data/DataRow.go: CompareDataRowColumns"]}
{"id": "C66", "title": "Received metadata reaches the measurement records", "statement": "After metadata is received, for every signal with a row in MeasurementDetail the record kept for it carries the tag, reference, type, description and time of update of the last such row, and source and ID of its key when that has the form SOURCE:ID; records of all other signals are unchanged.", "quantifier": "all tables, rows, columns present or absent, nulls and earlier registries", "why_tests_cant": "The outcome depends on which columns exist, on nulls and on repeated signals.", "anchors": ["sttp/Subscriber.go: loadMeasurementMetadata", "sttp/transport/DataSubscriber.go: LookupMetadata"]}
{"id": "C68", "title": "XML path predicates select by attribute or child value", "statement": "In a path step, name[@attr='value'] selects exactly the elements with that name whose attribute has the value, name[@attr] those that have the attribute, name[@*] those that have some attribute, name[child='value'] those with a child element of that name and content and name[child] those with such a child, for every value, in document order.", "quantifier": "all trees, names, attributes and values", "why_tests_cant": "Values containing characters with a meaning in paths, and empty values, are rarely tried.", "anchors": ["sttp/xml/XmlNode.go: SelectNodes, attributeMatch, childValueMatch, valueMatch, removeQuotes"]}
{"id": "C67", "title": "Data sets load from XML as written", "statement": "A data set written as XML in the schema form (tables, columns with types and expressions, one element per row, one child element per non-null value) loads with exactly its tables, found by name ignoring case, each with its columns in order and its rows in order with the written values and nulls, whatever prefix the schema namespace is bound to and for every string value; any document at all either loads, each table having one full-width row per child of the root with its name, or gives an error, and it gives an error exactly when the root has no accepted schema; loading never panics.", "quantifier": "all data sets, all cell values, all documents", "why_tests_cant": "Values needing XML escapes, several prefixes for a namespace, missing attributes and unknown elements multiply beyond any sample documents.", "anchors": ["sttp/data/DataSet.go: ParseXmlDocument, loadSchema, loadRecords", "sttp/data/DataType.go: ParseXsdDataType", "sttp/xml/XmlNode.go: Prefix, Value"]}
{"id": "C69", "title": "Operators bind in the documented order", "statement": "The grammar documents the precedence of its binary operators (* / %, then + -, then << >> & |, then < <= > >=, then = == === != !== <>, then IS NULL IN LIKE, then AND, then OR): for any two of them and any operands, a op1 b op2 c is evaluated as (a op1 b) op2 c when op1 is in the same or an earlier group than op2, and as a op1 (b op2 c) otherwise.", "quantifier": "all pairs of operators and all closed operands", "why_tests_cant": "Operators form hundreds of pairs with unbounded operands; the existing tests bracket most of their operations.", "anchors": ["sttp/data/FilterExpressionSyntax.g4: expression, predicateExpression, valueExpression", "sttp/data/parser/filterexpressionsyntax_parser.go: expression, predicateExpression, valueExpression", "sttp/data/FilterExpressionParser.go: ExitExpression, ExitPredicateExpression, ExitValueExpression"]}
{"id": "C70", "title": "Every expression has one reading and its tree follows it", "statement": "The parser accepts a sequence of tokens as an expression exactly when it is the text of a syntax tree whose operators need no brackets under the precedences of the grammar rules, it yields that one tree, and the expression tree built from it applies each operator, function and list test to the expressions of its own operands, in order; brackets change nothing else, and with brackets every grouping can be written.", "quantifier": "all token sequences and syntax trees of any depth", "why_tests_cant": "Expressions nest without bound; the tree is assembled through a map keyed by parse contexts.", "anchors": ["sttp/data/parser/filterexpressionsyntax_parser.go: expression, predicateExpression, valueExpression, ExpressionList", "sttp/data/FilterExpressionParser.go: tryGetExpr, addExpr, ExitExpression, ExitPredicateExpression, ExitValueExpression, ExitFunctionExpression"]}
{"id": "C71", "title": "An integer literal denotes the number it writes", "statement": "For every sequence of decimal digits, the literal denotes the number the digits write: as an Int32 when it is below 2^31, else as an Int64 when below 2^63, else as a Decimal.", "quantifier": "all digit sequences of any length", "why_tests_cant": "Digit sequences are unbounded; leading zeros are rarely tried.", "anchors": ["sttp/data/FilterExpressionParser.go: ExitLiteralValue, parseNumericLiteral"]}
{"id": "C72", "title": "Delimiters are not part of what they delimit", "statement": "A string literal denotes its text, with each doubled quote standing for one; a date or GUID literal denotes the date or GUID between its delimiters, or makes the expression an error; a name in brackets or backquotes denotes the column of that name, like the bare name.", "quantifier": "all texts", "why_tests_cant": "Texts are unbounded; names and strings that need their delimiters are rarely tried.", "anchors": ["sttp/data/FilterExpressionParser.go: ExitLiteralValue, ExitColumnName, parseStringLiteral, parseGuidLiteral, parseDateTimeLiteral", "sttp/data/FilterExpressionSyntax.g4: IDENTIFIER, STRING_LITERAL"]}
{"id": "C73", "title": "AND, OR, NOT and string joining mean what they say", "statement": "AND, OR and NOT of conditions compute conjunction, disjunction and negation, an unknown (null) operand counting as in SQL, and the right operand is only evaluated when the left one does not decide; NOT of an AND is the OR of the NOTs; + on strings joins the left text and the right one, whatever type of value the other operand is.", "quantifier": "all expressions, operands and rows", "why_tests_cant": "Operands are arbitrary expressions; nulls and failing operands are rarely tried.", "anchors": ["sttp/data/ExpressionTree.go: andOp, orOp, addOp", "sttp/data/ExpressionTree.go: evaluateOperator", "sttp/data/UnaryExpression.go: unaryBoolean"]}
{"id": "C74", "title": "Text functions work on characters", "statement": "For every text: Contains, StartsWith and EndsWith are true exactly when the test text occurs somewhere, at the start or at the end, letter case aside on request; Len is the number of characters; Reverse turns the characters round and undoes itself; Trim removes exactly the white space at both ends, TrimLeft and TrimRight at one.", "quantifier": "all texts, including those outside ASCII and those that are no UTF-8", "why_tests_cant": "Texts are unbounded; the existing tests use ASCII.", "anchors": ["sttp/data/ExpressionTree.go: contains, startsWith, endsWith, len, reverse, trim, trimLeft, trimRight"]}
{"id": "C75", "title": "Replace puts the replacement in the place of each occurrence", "statement": "For every text, test text and replacement, Replace yields the text with each leftmost non-overlapping occurrence of the test text, letter case aside on request, replaced by the replacement, and everything else unchanged.", "quantifier": "all texts, test texts and replacements", "why_tests_cant": "Replacements and texts with a meaning in patterns are rarely tried; occurrences may overlap.", "anchors": ["sttp/data/ExpressionTree.go: replace"]}
{"id": "C76", "title": "Abs, rounding and Convert on every value", "statement": "Abs of a whole number is its absolute value; Ceiling, Floor and Round leave whole numbers unchanged and refuse values that are no numbers; Convert takes exactly the names of the value types, letter case aside, and refuses any other.", "quantifier": "all values and all type names", "why_tests_cant": "2^64 numbers and unbounded names.", "anchors": ["sttp/data/ExpressionTree.go: abs, ceiling, floor, round, convert"]}
{"id": "C77", "title": "DatePart gives the parts of a date", "statement": "For every date and time of day, DatePart gives its year, month, day, day of the year, ISO week, day of the week (Sunday is 1), hour, minute, second and millisecond; the interval is named letter case and surrounding white space aside, any other name and a text that is no date are refused.", "quantifier": "all dates of all years, all times of day, all names", "why_tests_cant": "Leap years, century rules and ISO weeks at the ends of years; unbounded dates.", "anchors": ["sttp/data/ExpressionTree.go: datePart", "sttp/data/Constants.go: ParseTimeInterval"]}
{"id": "C78", "title": "DateAdd moves a date by the intervals given", "statement": "DateAdd moves a date by exactly the given number of hours, minutes, seconds, milliseconds, days or weeks, and by months or years to the same day of the month that many months on; the opposite amount leads back.", "quantifier": "all dates and amounts", "why_tests_cant": "Ends of months, leap days and overflow at large amounts are rarely tried.", "anchors": ["sttp/data/ExpressionTree.go: dateAdd"]}
{"id": "C79", "title": "DateDiff counts the intervals between two dates", "statement": "DateDiff is the number of whole intervals from the first date to the second, negative when the second is earlier, and undoes DateAdd.", "quantifier": "all pairs of dates and all intervals", "why_tests_cant": "Unbounded pairs of dates; conversion to 32 bits and saturation show only at large distances.", "anchors": ["sttp/data/ExpressionTree.go: dateDiff"]}
{"id": "C80", "title": "The lexer cuts every text without loss", "statement": "Every text is cut into pieces that together are the text, each one the longest that any lexer rule takes at its place and of the first rule that takes as much; the lexer fails on no text, and whoever cuts by these rules gets the same pieces.", "quantifier": "all texts", "why_tests_cant": "Texts are unbounded; the longest match depends on the rest of the text.", "anchors": ["sttp/data/parser/filterexpressionsyntax_lexer.go: serializedLexerAtn", "sttp/data/FilterExpressionSyntax.g4: lexer rules"]}
{"id": "C81", "title": "Keywords in any case, other words are names", "statement": "A keyword or Boolean is recognised in any mixture of cases and is not recognised as part of a longer word; any other word of letters, digits and underscores that begins with no digit is an identifier.", "quantifier": "all words and everything that may follow them", "why_tests_cant": "All words in all mixtures of cases and all continuations.", "anchors": ["sttp/data/parser/filterexpressionsyntax_lexer.go: serializedLexerAtn", "sttp/data/FilterExpressionSyntax.g4: lexer rules"]}
{"id": "C82", "title": "Numbers and GUIDs are read whole", "statement": "Digits are an integer, 0x with hexadecimal digits too, digits with a point or an exponent are a number, and a GUID in quotes, braces or bare is a GUID.", "quantifier": "all literals and everything that may follow them", "why_tests_cant": "Unbounded; the longest match may cross the end of the literal.", "anchors": ["sttp/data/parser/filterexpressionsyntax_lexer.go: serializedLexerAtn", "sttp/data/FilterExpressionSyntax.g4: lexer rules"]}
{"id": "C83", "title": "What is between delimiters is one token", "statement": "A text in single quotes with its own quotes doubled is a string, one between backticks or brackets an identifier, one between # a date, one in double quotes a point tag, and a source, a colon and a number a measurement key.", "quantifier": "all texts between delimiters and everything that may follow", "why_tests_cant": "Unbounded texts, and rules that compete for them.", "anchors": ["sttp/data/parser/filterexpressionsyntax_lexer.go: serializedLexerAtn", "sttp/data/FilterExpressionSyntax.g4: lexer rules"]}
{"id": "C84", "title": "Operators and comments", "statement": "Where several operators begin alike the longest is taken; blanks and comments, from -- to the end of the line or from /* to the nearest */, are skipped.", "quantifier": "all operators, comments and continuations", "why_tests_cant": "Unbounded continuations; competing rules.", "anchors": ["sttp/data/parser/filterexpressionsyntax_lexer.go: serializedLexerAtn", "sttp/data/FilterExpressionSyntax.g4: lexer rules"]}
{"id": "C85", "title": "Blanks separate tokens", "statement": "Tokens written with blanks around them are read as they were written: what is one token when it stands alone is one before any blank.", "quantifier": "all sequences of tokens and all blanks between them", "why_tests_cant": "Unbounded sequences; a longer match over the blank has to be excluded for every rule.", "anchors": ["sttp/data/parser/filterexpressionsyntax_lexer.go: serializedLexerAtn", "sttp/data/FilterExpressionSyntax.g4: lexer rules"]}
{"id": "C86", "title": "The text of an expression is read as that expression", "statement": "For every syntax tree that needs no further brackets and whose literals and names have texts of their kind there is a text that is parsed to it, and every text that writes its tokens with any blanks between them is.", "quantifier": "all syntax trees", "why_tests_cant": "Unbounded trees and all their texts.", "anchors": ["sttp/data/parser/filterexpressionsyntax_lexer.go: serializedLexerAtn", "sttp/data/FilterExpressionSyntax.g4: lexer rules", "sttp/data/parser/filterexpressionsyntax_parser.go: expression"]}
{"id": "C87", "title": "Statements are what stands between semicolons", "statement": "The parser accepts a sequence of tokens exactly when it is a list of statements, each a GUID, a measurement key, a point tag, a FILTER statement or an expression, with one or more semicolons between them and any number before and after; it reads exactly these statements, and there is no other way to read it.", "quantifier": "all token sequences and all lists of statements of any length", "why_tests_cant": "Lists are unbounded; GUIDs are both statements and expressions.", "anchors": ["sttp/data/parser/filterexpressionsyntax_parser.go: Parse, FilterExpressionStatementList, FilterExpressionStatement, IdentifierStatement, FilterStatement, TopLimit, OrderingTerm", "sttp/data/FilterExpressionSyntax.g4: parse, filterExpressionStatementList"]}
{"id": "C88", "title": "A filter expression selects what its text says", "statement": "For every data set and every text: SelectDataRows of FILTER TOP n table WHERE condition ORDER BY terms gives the first n rows for which the condition is true, in the order of the terms; an expression alone selects from the primary table; SelectDataRowSet and SelectSignalIDSet give the union of what the statements of the text select, a GUID selecting itself, and a measurement key or point tag, letter case aside, the first row with it; a statement that makes no sense makes the text an error, wherever it stands.", "quantifier": "all texts, data sets, statements and limits", "why_tests_cant": "From characters to rows: texts, statements, nesting of conditions and data are all unbounded.", "anchors": ["sttp/data/FilterExpressionParser.go: SelectDataRows, SelectDataRowSet, SelectSignalIDSet, Evaluate, visitParseTreeNodes, EnterFilterStatement, ExitIdentifierStatement"]}
{"id": "C89", "title": "Select selects by the filter, sort order and limit given", "statement": "For every table, filter, sort order and limit, DataTable.Select gives the rows for which the filter is true, the first as many as the limit if it is above zero, ordered by the sort order if there is one; without a filter all rows qualify.", "quantifier": "all tables, filters, sort orders and limits", "why_tests_cant": "The arguments are put into one text that is parsed; filters are unbounded.", "anchors": ["sttp/data/DataTable.go: Select", "sttp/data/FilterExpressionParser.go: GenerateExpressionTree"]}
{"id": "C90", "title": "Evaluating a text gives the value of the expression in it", "statement": "EvaluateExpression gives the value of the expression written, EvaluateDataRowExpression its value with the columns of the row; of several statements only the first is evaluated; a lone GUID is its value; a column without a data set, a measurement key and a point tag have no value.", "quantifier": "all texts and rows", "why_tests_cant": "Unbounded expressions.", "anchors": ["sttp/data/FilterExpressionParser.go: EvaluateExpression, EvaluateDataRowExpression, GenerateExpressionTree"]}
{"id": "C91", "title": "A computed column has the value of the expression written for it", "statement": "For every table in a data set, every row made by it and every computed column, reading the column gives the value of the expression that is written for it, with the columns of the same row, converted to the type of the column.", "quantifier": "all tables, rows, columns and expressions", "why_tests_cant": "Unbounded expressions, which may use other computed columns.", "anchors": ["sttp/data/DataRow.go: expressionTree, getComputedValue", "sttp/data/FilterExpressionParser.go: GenerateExpressionTree"]}
{"id": "C92", "title": "Operators mean what their signs and words say", "statement": "Every text of a comparison, arithmetic, bitwise, logical or unary operation, in each of the spellings the grammar has for the operator and in any letter case, builds the operation of that name on the operands; so do NOT, LIKE, IS NULL and IN with and without NOT and the exact-match sign, the Boolean literals, and calls: the name of each function, in any letter case, calls that function on the arguments in the order written.", "quantifier": "all operators, spellings and operands", "why_tests_cant": "Dozens of spellings in all mixtures of cases with unbounded operands.", "anchors": ["sttp/data/parser/filterexpressionsyntax_lexer.go: serializedLexerAtn", "sttp/data/FilterExpressionSyntax.g4: lexer rules", "sttp/data/FilterExpressionParser.go: ExitExpression, ExitPredicateExpression, ExitValueExpression, ExitLiteralValue, ExitFunctionExpression"]}
{"id": "C93", "title": "Formatted floats are the nearest decimal, grouped", "statement": "For every finite 64-bit float and every precision, FloatWith gives the decimal number with that many decimal places that is nearest to the value (ties to the even digit), exactly the value if it has no more places, with a minus sign exactly for a set sign bit, the decimal symbol for the point and the digits before the point grouped by three; infinities and NaN are left as they are.", "quantifier": "all 2^64 floats, all precisions, all decimal and group symbols that are no digits", "why_tests_cant": "2^64 values times precisions; halves and carries (9.995) are rare among them.", "anchors": ["sttp/format/Float.go: FloatWith, Float", "sttp/format/Common.go: formatNumber"]}
{"id": "C94", "title": "Dial goes where the address says", "statement": "An address is accepted exactly when it is host:port or [host]:port with a port of decimal digits between 1 and 65535; then the connection goes to that host and port. Otherwise, and while connected or listening, Dial and Listen fail and change nothing; after Disconnect a new Dial connects again.", "quantifier": "all addresses, configurations and histories of a subscriber", "why_tests_cant": "Unbounded texts; IPv6 hosts and a second dial are seldom tried.", "anchors": ["sttp/Subscriber.go: Dial, Listen, Disconnect, connect, listen", "sttp/transport/DataSubscriber.go: connect, listen", "sttp/transport/SubscriberConnector.go: Connect"]}
{"id": "C95", "title": "The configuration given is the configuration in use", "statement": "After any history, the configuration last given to an accepted Dial or Listen (the defaults for nil) is in use: the options for compression, version and byte order of identifiers, the retry settings of the connector and automatic reconnection; every connection begins by announcing it in DefineOperationalModes.", "quantifier": "all histories of dials, listens, disconnections, lost connections, packets and subscriptions", "why_tests_cant": "Depends on unbounded histories: settings that stick from an earlier configuration.", "anchors": ["sttp/Subscriber.go: Dial, Listen, connect, listen", "sttp/Config.go: NewConfig", "sttp/transport/DataSubscriber.go: sendOperationalModes"]}
{"id": "C96", "title": "A subscription asks for the settings given", "statement": "Subscribe sends a Subscribe command that asks for the filter and each of the settings given (the defaults without settings), at once when connected and otherwise when a connection is made and automatic subscription applies, whatever happens in between other than another Subscribe.", "quantifier": "all filters, settings, histories", "why_tests_cant": "The settings pass through a mutable subscription and a text of parameters; combinations are unbounded.", "anchors": ["sttp/Subscriber.go: Subscribe", "sttp/Settings.go: NewSettings", "sttp/transport/DataSubscriber.go: Subscribe", "sttp/transport/SubscriptionInfo.go"]}
{"id": "C97", "title": "A connection subscribes once, after the metadata", "statement": "With automatic metadata requests, each connection begins with the modes and one metadata request with the filters given, and a Subscribe follows each received metadata; without them it begins with the modes and a Subscribe if automatic subscription is on; with both off nothing is subscribed. No subscription precedes the metadata.", "quantifier": "all histories: dials, listens, lost connections, packets, goroutines at any time", "why_tests_cant": "Depends on the order of packets, goroutines and reconnections.", "anchors": ["sttp/Subscriber.go: handleConnect, handleMetadataReceived, Dial, Listen, Subscribe, RequestMetadata", "sttp/transport/DataSubscriber.go: handleMetadataRefresh, Subscribe"]}
{"id": "C98", "title": "Concurrent sends stay intact", "statement": "Commands sent by several goroutines at once reach the peer complete: the peer reads exactly the calls made, each with its own code and payload, those of one goroutine in the order it made them.", "quantifier": "all numbers of goroutines, all commands and payloads, every interleaving of their steps", "why_tests_cant": "Needs particular interleavings of goroutines sharing one buffer; a test rarely schedules them.", "anchors": ["sttp/transport/DataSubscriber.go: SendServerCommandWithPayload"]}
{"id": "C99", "title": "The text of a Guid is its own", "statement": "The text of every Guid reads back as that Guid, so different Guids have different texts; a text is accepted exactly when it is the digits of a Guid in groups of 8, 4, 4, 4 and 12, bare, in braces or after urn:uuid:, or its 32 digits, in either case; any other text gives an error and no Guid.", "quantifier": "all Guids and all texts", "why_tests_cant": "2^128 Guids and unbounded texts, valid and malformed.", "anchors": ["sttp/guid/Guid.go: Parse, String", "sttp/data/ValueExpression.go: convertFromString", "sttp/data/DataSet.go: GUID fields"]}
{"id": "C100", "title": "Decimal arithmetic is exact", "statement": "Sums, differences, products and negations of decimals, and of a decimal with an integer or truth value, are exactly the sum, difference, product and negation of the numbers; a quotient is the exact one rounded to 16 decimal places, halves away from zero.", "quantifier": "all decimals, integers and truth values", "why_tests_cant": "Infinitely many numbers of any precision; an error in aligning exponents shows only for some of them.", "anchors": ["sttp/data/ExpressionTree.go: addOp, subtractOp, multiplyOp, divideOp", "sttp/data/ValueExpression.go: convertFromInt32, convertFromInt64", "sttp/data/UnaryExpression.go: unaryDecimal"]}
{"id": "C101", "title": "Double arithmetic is correctly rounded", "statement": "With a Double among the operands both are taken to the nearest double, and the value is the double nearest to the exact sum, difference, product or quotient of those, the even one of two equally near; results from 2^1024 - 2^970 on overflow to infinity, and infinities, NaN, division by zero and signed zeros follow IEEE 754; the unary minus is exact.", "quantifier": "all numbers", "why_tests_cant": "2^128 pairs of doubles.", "anchors": ["sttp/data/ExpressionTree.go: addOp, subtractOp, multiplyOp, divideOp", "sttp/data/ValueExpression.go: convertFrom..."]}
{"id": "C102", "title": "Square roots are correctly rounded", "statement": "Sqrt of a number is the double nearest to the square root of the double nearest to the number; the root of the square of a whole number up to 94906265 is that number, that of 0 is 0, and that of a negative number is not a number.", "quantifier": "all numbers of any numeric type in the range of Double", "why_tests_cant": "Needs the exact root of any of 2^63 doubles.", "anchors": ["sttp/data/ExpressionTree.go: sqrt"]}
{"id": "C103", "title": "Comparisons of mixed numbers", "statement": "The comparison operators applied to numbers of different types say of them what holds of the numbers they denote.", "quantifier": "all pairs of numeric values and truth values, all comparison operators", "why_tests_cant": "All pairs of values; conversions lose digits only for large numbers.", "anchors": ["sttp/data/ExpressionTree.go: lessThanOp ... notEqualOp, convertOperands", "sttp/data/ExpressionOperatorType.go: deriveComparisonOperationValueType", "sttp/data/ValueExpression.go: convertFrom..."]}
{"id": "C104", "title": "Numbers and their texts", "statement": "A text that writes a number converts to that number (Double: the nearest double; integers: its whole part); the text of a number writes it, and converting a number to text and back gives it back.", "quantifier": "all numbers, all texts that write one: sign, digits, decimal point, power of ten", "why_tests_cant": "Unboundedly many texts for unboundedly many numbers.", "anchors": ["sttp/data/ValueExpression.go: convertFromString, String"]}
{"id": "C105", "title": "Numeric literals denote their numbers", "statement": "A numeric literal evaluates to the number it writes: whole numbers as Int32, Int64 or, beyond 64 bits, Decimal; with a decimal point as Decimal; with a power of ten as the nearest Double, or as Decimal beyond its range.", "quantifier": "all numeric literals without leading zero", "why_tests_cant": "Unboundedly many literals, with three different readers in turn.", "anchors": ["sttp/data/FilterExpressionParser.go: ExitLiteralValue, parseNumericLiteral"]}
{"id": "C106", "title": "What is published is received", "statement": "Everything together: on a connection of protocol version 2 or later a publisher answers the negotiation and then sends caches, base times, cipher keys, compact packets and TSSC blocks for either cache half, buffer blocks and other responses in any order in which they make sense. Then the application is handed exactly the measurements of each data packet, in the order sent; the subscriber neither panics nor ends the connection.", "quantifier": "all sequences of packets a publisher may send, all ways the bytes arrive in pieces, all earlier states of the subscriber, all contents of the slice pool, all ciphers", "why_tests_cant": "Unboundedly many packets of eight kinds, in any order, each depending on what came before, cut at any byte.", "anchors": ["sttp/transport/DataSubscriber.go: runCommandChannelResponseThread, readPayloadHeader, processServerResponse, handleDataPacket"]}
{"id": "C107", "title": "Data over UDP", "statement": "A data channel may carry any of the responses. Those that arrive are processed like those of the command channel; when compact packets are lost, repeated or arrive in another order, each that arrives hands the application exactly its own measurements; datagrams that are no responses, or longer than the buffer, or TSSC blocks after a lost one do no harm beyond their own loss.", "quantifier": "all interleavings of packets and datagrams, all selections and orders of compact datagrams, all datagrams", "why_tests_cant": "Networks lose and reorder in unboundedly many ways.", "anchors": ["sttp/transport/DataSubscriber.go: runDataChannelResponseThread, processServerResponse, handleDataPacket, parseTSSCMeasurements"]}
{"id": "C108", "title": "A lost connection is made again", "statement": "Each time a connection is lost, one disconnect thread closes it and one reconnect thread makes the next connection, whatever callbacks do, including a Connect in the connection terminated callback and assignments of callbacks; the threads never wait for each other in a circle, so all of them end.", "quantifier": "all schedules of all goroutines, any number of lost connections, failed dials and failed sends", "why_tests_cant": "Deadlocks need particular interleavings of three goroutines, two joins and a reader-writer lock.", "anchors": ["sttp/transport/DataSubscriber.go: disconnect, runDisconnectThread, dispatchConnectionTerminated, connect, establishConnection, SendServerCommandWithPayload, BeginCallbackAssignment, BeginCallbackSync", "sttp/transport/SubscriberConnector.go: autoReconnect, connect", "sttp/thread/Thread.go: Join, TryStart"]}
{"id": "C109", "title": "The callback assigned is the callback called", "statement": "An event is handed to the callback last assigned for it, once, and in the order of events; assigning a callback takes effect immediately, even while a subscription is active: once a Set method has returned, the callback before it is not called again and nil is never called.", "quantifier": "all sequences of assignments, connects and events; all interleavings of any number of assigning and dispatching goroutines", "why_tests_cant": "Assignments racing with events need interleavings between a nil test and a call; which of two goroutines runs first is up to the scheduler.", "anchors": ["sttp/Subscriber.go: NewSubscriber, connect, listen, StatusMessage, ErrorMessage, handleConnect, handleMetadataReceived, handleDataStartTime, handleConfigurationChanged, handleProcessingComplete, Set methods", "sttp/transport/DataSubscriber.go: dispatchStatusMessage, dispatchErrorMessage, handleUpdateSignalIndexCache, handleDataPacket, handleBufferBlock, handleNotification, BeginCallbackSync, BeginCallbackAssignment", "sttp/transport/SubscriberConnector.go: dispatchErrorMessage"]}
{"id": "C110", "title": "The text of a table value shows it", "statement": "The text of a column of a row, by index or name, shows the value there: strings, Booleans, GUIDs, integers and decimals exactly (and converts back), floats to six places, dates to hundredths of a second; null is shown as <NULL> and nothing else is; a text of a number that does not fit an integer column is refused; the text of a row has the texts of its columns in order and different rows have different texts; the text of a table has its columns and number of rows.", "quantifier": "all tables, rows, columns and values", "why_tests_cant": "Fifteen types with 2^64 values each, and injectivity over all pairs of rows.", "anchors": ["sttp/data/DataRow.go: ColumnValueAsString, ValueAsString, ValueAsStringByName, String, convertFromString", "sttp/data/DataTable.go: RowValueAsString, RowValueAsStringByName, String", "sttp/data/DataColumn.go: String", "sttp/data/DataType.go: String", "sttp/data/DataSet.go: String"]}
{"id": "C111", "title": "The text of a timestamp or measurement says what it holds", "statement": "The text of a timestamp is its date and time to 100 ns in the calendar, whatever its flags, and different timestamps have different texts; the text of a measurement shows its identifier, its time of day to the millisecond, its value to a thousandth and the names of exactly its flags, and determines them.", "quantifier": "all 64-bit timestamps, all measurements", "why_tests_cant": "Leap years, trailing zeros of fractions and 2^62 timestamps; injectivity is a statement about all pairs.", "anchors": ["sttp/ticks/Ticks.go: String, ShortTime, ToTime", "sttp/transport/Measurement.go: String"]}
{"id": "C112", "title": "Dates of a document are the instants meant", "statement": "A text in a date field of a metadata document is read as a date exactly if it is a date of the calendar of the years 0 to 9999, T, a time of day, possibly a fraction, and a zone, and the instant loaded is the one meant; a date written is read back unchanged.", "quantifier": "all texts, all instants", "why_tests_cant": "Which texts are dates (leap days, one-digit hours, fractions of any length, zones of both signs) is an infinite language; a reader wrong for one form loads year 1 silently.", "anchors": ["sttp/data/DataSet.go: loadRecords, DateTimeFormat", "sttp/data/ValueExpression.go: String", "go.mod: go 1.22"]}
{"id": "C113", "title": "A listening subscriber serves publishers one after the other", "statement": "While a publisher is connected to a listening subscriber, every other connection is closed at once, nothing of it is processed and the connection served stays as it is; the connection is given up only when its publisher leaves, and then the next publisher to connect is served; Disconnect ends listening.", "quantifier": "all schedules of the accept thread, the response goroutines, the termination thread, the disconnect threads and publishers that connect and leave at any time", "why_tests_cant": "Races between a publisher connecting and what is left of the connection before need particular interleavings of five goroutines.", "anchors": ["sttp/transport/DataSubscriber.go: listen, runListenThread, setupConnection, establishConnection, runCommandChannelResponseThread, readPayloadHeader, dispatchConnectionTerminated, disconnect, runDisconnectThread", "sttp/thread/Thread.go"]}
{"id": "C114", "title": "Measurements handed over are the application's own", "statement": "Measurements handed to the application stay as they are until the application gives the slice back with PutMeasurementSlice or writes into it itself, however many packets are received and slices given back meanwhile; slices held at the same time share no memory. This is for applications that use and give back only slices they have been handed and have not given back.", "quantifier": "all schedules of any number of receiving goroutines and of the application, all packets, all behaviours of sync.Pool", "why_tests_cant": "Sharing of memory shows only when a pooled slice of sufficient capacity is reused while another holder reads; it depends on the pool and the schedule.", "anchors": ["sttp/transport/DataSubscriber.go: handleDataPacket, MeasurementPool", "sttp/Subscriber.go: PutMeasurementSlice"]}
{"id": "C115", "title": "Metadata as published is metadata as looked up", "statement": "After a metadata document has been received, looking up a signal gives the source and number of its key, the tag, the reference, the type, the description and the time of update that the publisher wrote in the last row for it in MeasurementDetail, whatever other tables, columns and rows the document has and whatever was known before; signals without a row are as they were.", "quantifier": "all documents rendered from any tables, all orders of columns, all rows with missing fields, all earlier registries", "why_tests_cant": "It goes through five layers (elements, schema, field texts, table, registry), each with its own defaults for what is missing; the statement is about all documents.", "anchors": ["sttp/Subscriber.go: handleMetadataReceived, loadMeasurementMetadata", "sttp/data/DataSet.go: ParseXmlDocument, loadSchema, loadRecords"]}
{"id": "C116", "title": "Texts of codes tell which code it is", "statement": "In messages, commands, responses, kinds of signals, types, functions and operators appear by name. Different values have different texts, also values that are not defined, which appear as their number in hexadecimal; every defined value appears by its own name; and the text of a function or operator, put into a filter expression, calls that function or applies that operator.", "quantifier": "all integers as values of eight enumerations; all functions and operators with all operands", "why_tests_cant": "Injectivity is about all pairs of values including undefined ones; a missing case or a swapped name goes unnoticed in messages.", "anchors": ["sttp/data/Constants.go: String methods", "sttp/transport/Constants.go: String methods", "sttp/transport/SignalKind.go: String"]}
{"id": "C117", "title": "Closing ends the connection", "statement": "A subscriber closed by any goroutine at any time does not crash; Close returns; the connection is closed, the goroutine reading from it ends and the application is told that the connection is terminated, once; and from then on nothing is handed to the application.", "quantifier": "all schedules of Dial, Close, the response goroutine, the termination thread and the disconnect threads, at the level of single reads and writes of flags and pointers", "why_tests_cant": "The outcome depends on the schedule; a test sees a few of them.", "anchors": ["sttp/Subscriber.go: Close", "sttp/transport/DataSubscriber.go: Dispose, disconnect, runDisconnectThread, establishConnection, runCommandChannelResponseThread, dispatchConnectionTerminated", "sttp/thread/Thread.go: Join, TryStart"]}
{"id": "C118", "title": "The key of a signal is the one metadata give, else the one of the signal index cache", "statement": "Source and number of a signal, as looked up, are those the last metadata gave; signal index caches received before or afterwards do not change them. Until metadata give a key, they are those of the signal index cache in use.", "quantifier": "all histories of metadata, signal index caches (as bytes), look-ups and assignments within a connection", "why_tests_cant": "Two paths write the same record in any order, and errors in one leave half of it; tests use one order.", "anchors": ["sttp/transport/SignalIndexCache.go: addRecord, decode", "sttp/Subscriber.go: loadMeasurementMetadata", "sttp/transport/DataSubscriber.go: LookupMetadata"]}
{"id": "C119", "title": "Values are read as the type they were made with", "statement": "A value expression can be made from a value exactly if the value is of the Go type of the value type given, or nil; it then has that type and is null exactly if it was made from nil. Of the eight readers the one of its type gives the value, or the zero value for null, and each other one an error.", "quantifier": "all value types, all Go values", "why_tests_cant": "Eight types by eight readers with hand-written cases; a wrong assertion panics only for the pair concerned.", "anchors": ["sttp/data/ValueExpression.go: NewValueExpression, NullValue, BooleanValue, Int32Value, Int64Value, DecimalValue, DoubleValue, StringValue, GuidValue, DateTimeValue"]}
{"id": "C120", "title": "A document is read as it is written", "statement": "LoadXml accepts a text exactly when it is a prolog (comments, instructions, directives, text) followed by a well-formed element, whatever comes after it, and the tree it makes is the one the text describes: for every element its name, the name space declared nearest for its prefix, its attributes in order with escapes resolved and line ends normalized, the bytes between its tags, and its child elements in order. The division of a text into prolog, root and rest is unique, so the tree is too, and a document cut anywhere before the end of its root is rejected.", "quantifier": "all byte texts, of any depth and length", "why_tests_cant": "Arbitrary nesting, escapes, quotes and cuts; a test sees a few documents.", "anchors": ["sttp/xml/XmlDocument.go: LoadXml, UnmarshalXML", "sttp/xml/XmlNode.go: XmlNode"]}
{"id": "C121", "title": "The binary length of a signal index cache", "statement": "BinaryLength of a decoded signal index cache is the number of bytes of the cache as it was received, whatever the records, and each record added makes it longer by the bytes of that record.", "quantifier": "all buffers, all caches, all records", "why_tests_cant": "The length is kept by counting, not by measuring; a wrong constant shows only when someone relies on the number.", "anchors": ["sttp/transport/SignalIndexCache.go: BinaryLength, addRecord, decode"]}
{"id": "C122", "title": "A copied row reads like the row copied", "statement": "CloneRow gives a row that reads the same as its source through every reader in every column, computed ones included; copied into another table it has in each stored column what the source has at that position and nothing where the source has no such column. It never ends the program. A copied column has the name, type and expression of its source. Rows made before a column was added to their table still read what they held, and null in the new column.", "quantifier": "all tables, all rows reached by creating, storing and reading, all readers, all columns added", "why_tests_cant": "Copies of computed columns, cached expression trees and rows older than a column only meet in long sequences of calls.", "anchors": ["sttp/data/DataTable.go: CloneRow, CloneColumn, AddColumn, CreateRow", "sttp/data/DataRow.go: Value, SetValue, expressionTree"]}
{"id": "C123", "title": "The socket of the data channel is closed when it is no longer wanted", "statement": "Of the UDP sockets opened by Subscribe at most one is open at any time; it is closed when the subscription is ended or replaced and when the connection ends; these calls return without waiting for further datagrams; afterwards nothing that arrives at the socket is processed; and no error is reported where nothing is wrong.", "quantifier": "all schedules of Subscribe, Unsubscribe, Disconnect, the answers of the publisher, datagrams and the goroutines that read the sockets; any number of subscriptions and connections", "why_tests_cant": "It depends on whether the answer of the publisher or the next call comes first, and a leaked socket shows only later, as a port in use or a call that does not return.", "anchors": ["sttp/transport/DataSubscriber.go: Subscribe, Unsubscribe, disconnect, runDisconnectThread, runDataChannelResponseThread", "sttp/thread/Thread.go: Join"]}
{"id": "C124", "title": "A changed configuration is followed up", "statement": "When the publisher announces on a validated connection that its configuration has changed, the application is told once, and with automatic metadata requests exactly one request for metadata goes out per announcement, with the filters of the configuration; without them nothing is sent. With automatic subscription each metadata received leads to exactly one Subscribe for the subscription as set, after an Unsubscribe if there is a subscription; without it the subscription is left to the application.", "quantifier": "all states of a connection, all sequences of packets, all orders in which the goroutines started for announcements and metadata run", "why_tests_cant": "Announcements, answers and goroutines interleave freely; a request lost or sent twice shows only under particular orders.", "anchors": ["sttp/Subscriber.go: handleConfigurationChanged, handleMetadataReceived, RequestMetadata", "sttp/transport/DataSubscriber.go: handleConfigurationChanged, handleMetadataRefresh, Subscribe"]}
{"id": "C125", "title": "What is reported of received metadata is what was received", "statement": "For every metadata document received the application gets one status message and then the data set: the message gives the number of all records, one line for each table with its name and number of records, and the version of the schema; the order of the tables in the document or in memory changes at most the order of the lines. A document that cannot be read is reported as one without tables and the data set handed over is empty.", "quantifier": "all bytes received, all data sets, all orders in which Go walks the tables, all numbers of tables and records", "why_tests_cant": "Map iteration order is random; totals go through two look-ups by upper-case name, so tables that collide or are missed show only for certain names.", "anchors": ["sttp/Subscriber.go: handleMetadataReceived, showMetadataSummary", "sttp/data/DataSet.go: Tables, Table, ParseXml", "sttp/data/DataTable.go: RowValueAsStringByName"]}
{"id": "C126", "title": "A filter expression parser can be used again", "statement": "What Evaluate reports of a parser does not depend on the calls made before: with the same text, data set and settings it gives what a new parser gives, for the data as they are now, a text that is refused is refused every time, and ExpressionTrees gives the trees of the text whenever it is called.", "quantifier": "all texts without syntax error, all data sets, settings and flags at each call, all sequences of calls", "why_tests_cant": "Tests make a new parser for each text; a second evaluation that finds nothing looks like data that do not match.", "anchors": ["sttp/data/FilterExpressionParser.go: NewFilterExpressionParser, ExpressionTrees, Evaluate, visitParseTreeNodes", "sttp/data/parser/filterexpressionsyntax_parser.go: Parse, Err"]}
{"id": "C127", "title": "Base times can change while data packets are in flight", "statement": "When new base times arrive on the command channel while the goroutine of the data channel decodes packets, the update takes effect at one moment, so that every packet is dated with the base times before or with those after it; packets that refer to a base time the update leaves as it is are delivered exactly as sent whatever the moment; once the update is stored its base times hold.", "quantifier": "all interleavings of the stores with the decoding of single measurements, any number of updates and packets, both resolutions", "why_tests_cant": "The window is a few instructions wide and opens once per minute; a wrong result is a plausible time stamp.", "anchors": ["sttp/transport/DataSubscriber.go: handleUpdateBaseTimes, parseCompactMeasurements", "sttp/transport/CompactMeasurement.go: Decode"]}
{"id": "C128", "title": "Reading measurements can be stopped", "statement": "An application that reads with a MeasurementReader can stop whenever it likes: after Disconnect or Close of the subscriber, or when another receiver is assigned or another reader set up, these complete in a bounded number of steps whether or not anybody goes on calling NextMeasurement, and Close of the reader is safe; as long as a reader is the one assigned, its calls return the measurements that arrive, each once and in order, and those of other readers none.", "quantifier": "all interleavings of the goroutine of the command channel, any number of readers and calls, the disconnect thread, assignments and closes", "why_tests_cant": "The program hangs only when the last call of NextMeasurement comes between two measurements of one batch.", "anchors": ["sttp/MeasurementReader.go: newMeasurementReader, NextMeasurement, Close", "sttp/Subscriber.go: ReadMeasurements, SetNewMeasurementsReceiver, Disconnect", "sttp/transport/DataSubscriber.go: runDisconnectThread, handleDataPacket, BeginCallbackSync, BeginCallbackAssignment"]}
{"id": "C129", "title": "What AES enciphers is received", "statement": "A publisher that announced cipher keys enciphers its data packets with AES in cipher block chaining mode. For keys of 16, 24 and 32 bytes, every initialisation vector and every content padded to whole blocks: deciphering gives back what was enciphered, and the application gets exactly the measurements of the packet, whether compact or TSSC and whatever the padding. Lengths that do not fit are answered by ending the connection, never by a panic.", "quantifier": "all keys, initialisation vectors, packets, paddings and states of the subscriber", "why_tests_cant": "The inverse of a cipher and the reading of arbitrary padding as TSSC code words cannot be sampled.", "anchors": ["sttp/transport/Common.go: decipherAES", "sttp/transport/DataSubscriber.go: handleDataPacket, parseTSSCMeasurements, handleUpdateCipherKeys"]}
{"id": "C130", "title": "Whatever is compressed by gzip is received", "statement": "Signal index caches and metadata travel compressed when the modes negotiated say so. decompressGZip accepts exactly the files of RFC 1952 with the blocks of RFC 1951: stored blocks, fixed codes and codes of the block itself, matches that overlap, header fields, several members, however the compressor chose among them, and gives the text they stand for, which is unique. The cache or the metadata the application gets is the one compressed. Everything else, damaged or cut short, is refused with an error and leaves the caches as they were.", "quantifier": "all byte sequences, all ways to compress a text, all states of the subscriber", "why_tests_cant": "The choices of compressors are unlimited: block boundaries, codes, matches; a test covers a few outputs of one compressor.", "anchors": ["transport/Common.go L51-66", "transport/DataSubscriber.go L1002-1027", "transport/DataSubscriber.go L1053-1103"]}
{"id": "C131", "title": "A text that is no filter expression is refused", "statement": "A text the grammar does not have is never taken for another one: every function that takes a filter expression returns an error for a text that is not a list of statements, and in particular two conditions with the operator between them forgotten, a bracket too many or a misspelt keyword behind a condition do not select rows by part of the text.", "quantifier": "all texts, tables, rows and flags; all functions that take a filter expression", "why_tests_cant": "The texts that are no filter expressions, and what they begin with, are unlimited.", "anchors": ["data/FilterExpressionParser.go L284-304", "data/CallbackErrorListener.go L44-51", "data/parser/filterexpressionsyntax_parser.go L404-450", "data/parser/filterexpressionsyntax_parser.go L646-734"]}
{"id": "C132", "title": "The connection ID tells the peer", "statement": "ConnectionID shows whom a subscriber is connected to: the host and port it dialled or, when it listens, the host that connected, with its DNS name in front if there is one. Different peers have different IDs, whatever names are looked up.", "quantifier": "all hosts (names, IPv4 and IPv6 addresses), ports and results of DNS look-ups", "why_tests_cant": "Hosts and the answers of a name server are unlimited; a test has neither a second host nor a name server at hand.", "anchors": ["sttp/transport/Common.go: resolveDNSName", "sttp/transport/DataSubscriber.go: establishConnection, ConnectionID"]}
{"id": "C133", "title": "Selecting from a table selects its rows", "statement": "SelectDataRowsFromTable, SelectDataRowSetFromTable, SelectSignalIDSetFromTable and DataTable.Select are given a table. They select exactly the rows of that table for which the expression is true, whatever other tables its data set has, had or gets, and whatever primary table is named.", "quantifier": "all tables, expressions, and histories of tables added to and removed from the data set", "why_tests_cant": "Tables are found again by name: which one is found depends on the whole history of the data set.", "anchors": ["sttp/data/FilterExpressionParser.go: SelectDataRowsFromTable, SelectDataRowSetFromTable, SelectSignalIDSetFromTable", "sttp/data/DataTable.go: Select", "sttp/data/DataSet.go: AddTable, Table, RemoveTable"]}
{"id": "C134", "title": "The bytes of the data channel", "statement": "Over any history of a connection, TotalDataChannelBytesReceived is the number of bytes that came over the data channel since the connection began and TotalCommandChannelBytesReceived the number that came over the command channel, whatever was subscribed to meanwhile; neither goes down during a connection.", "quantifier": "all histories of packets, datagrams, calls and settings of a connection", "why_tests_cant": "The totals are only wrong for histories with both kinds of subscription or other packets than data.", "anchors": ["sttp/transport/DataSubscriber.go: setupConnection, readPayloadHeader, readPacket, runDataChannelResponseThread, TotalCommandChannelBytesReceived, TotalDataChannelBytesReceived", "sttp/Subscriber.go: Subscribe"]}
{"id": "C135", "title": "Disconnect and Close in a callback", "statement": "Whichever callback of the library the application calls Disconnect or Close from, the call returns, the callback returns, and the disconnect completes: when Close has returned and, for Disconnect, when nothing more happens, the subscriber is disconnected, and it stays so.", "quantifier": "every callback that the library runs, whatever goroutine it runs on, both calls, every schedule of that goroutine and the disconnect thread", "why_tests_cant": "The outcome depends on which goroutine runs the callback and on whether the disconnect thread has begun to run when it is joined; a test sees one order of the two, and a deadlock shows as a test that does not end.", "anchors": ["sttp/transport/DataSubscriber.go:L203-L214", "sttp/transport/DataSubscriber.go:L595-L725", "sttp/transport/SubscriberConnector.go:L79-L130", "sttp/transport/SubscriberConnector.go:L244-L263", "sttp/thread/Thread.go:L44-L97"]}
{"id": "C136", "title": "Cipher keys change while datagrams arrive", "statement": "However an update of the cipher keys on the command channel and datagrams on the data channel meet, every datagram is deciphered with the keys it was enciphered with, and none makes the program panic.", "quantifier": "every sequence of updates, every sequence of datagrams, every interleaving of the stores of one goroutine with the loads of the other, either order of storing and of loading the two words of the slice", "why_tests_cant": "The keys are shared by two goroutines without a lock; a test meets one interleaving, and the one that matters lies between two machine instructions.", "anchors": ["sttp/transport/DataSubscriber.go:L861-L897", "sttp/transport/DataSubscriber.go:L1129-L1178", "sttp/transport/DataSubscriber.go:L1192-L1222"]}
{"id": "C137", "title": "The command line of the examples", "statement": "An example program that is given a host and a port from 1 to 65535 connects to (or listens at) that host and port; any other command line ends it with a message that names what is wrong.", "quantifier": "every list of arguments, every host and port text", "why_tests_cant": "Hosts and ports are unbounded texts; a test tries localhost and one port, and the cases that matter are IPv6 hosts and texts that are almost numbers.", "anchors": ["examples/SimpleSubscribe/ParseCmdLineArgs.go:L34-L57", "examples/SimpleSubscribe/SimpleSubscribe.go:L34-L74", "sttp/Subscriber.go:L187-L217", "sttp/Subscriber.go:L284-L314"]}
{"id": "C138", "title": "Transitions to new signal index caches, base times and keys are safe", "statement": "Every cache, base time and key update that has been taken over is confirmed, as the protocol constants document; a publisher that moves to a new signal index cache only when it is confirmed has each of its data packets, on the command channel and as datagrams, decoded with the cache it was encoded with.", "quantifier": "every interleaving of publisher, command goroutine and data goroutine; every order, delay, loss and duplication of datagrams; every list of packets", "why_tests_cant": "Depends on where data packets are when an update is stored and confirmed, and on datagrams that arrive late; a test sees one order.", "anchors": ["sttp/transport/Constants.go:L261-L269", "sttp/transport/DataSubscriber.go:L1053-L1103", "sttp/transport/DataSubscriber.go:L1105-L1178", "sttp/transport/DataSubscriber.go:L1192-L1262"]}
{"id": "C139", "title": "Letter case is set aside consistently", "statement": "Where expressions set letter case aside they do so in one way: of `<`, `=` and `>` exactly one holds for two texts; `=` takes for an ASCII text only the texts that differ from it in capitals and small letters; Upper and Lower change letters and nothing else; IndexOf gives positions in the text given, and Split gives what stands between the delimiters.", "quantifier": "all texts, ASCII or not, UTF-8 or not; every case mapping beyond ASCII", "why_tests_cant": "ToUpper, ToLower, EqualFold and the folding of regular expressions are four different mappings; they differ for a few characters beyond ASCII only.", "anchors": ["sttp/data/ExpressionTree.go:L2989-L3190", "sttp/data/ExpressionTree.go:L1830-L2009", "sttp/data/ExpressionTree.go:L2225-L2268", "sttp/data/ExpressionTree.go:L2313-L2359", "sttp/transport/SignalKind.go:L140-L225"]}
{"id": "C140", "title": "Regular expressions find what they describe", "statement": "RegExMatch is true exactly if some part of the text, in whole characters, is described by the pattern, and a text that is no regular expression is an error; RegExVal returns the part at the first place where there is one, the longest from there, and tells it from no match; a pattern without special characters finds the texts that contain it; between ^ and $ a pattern has to describe the whole text.", "quantifier": "all patterns of the syntax modelled and all texts, UTF-8 or not", "why_tests_cant": "A search engine has infinitely many patterns and texts; tests sample a few of them, and do not show that a match elsewhere was not missed.", "anchors": ["sttp/data/ExpressionTree.go:L2173-L2223"]}
{"id": "C141", "title": "The examples show what comes, every five seconds and no more often", "statement": "An example program shows a message for the first measurements of a connection and then no more often than every five seconds, and leaves none out that is due; each message tells how many measurements have been received and what they are; a lost connection is reported as such on standard error; no packet ends the program; SimpleResubscribe subscribes to one measurement more for each line entered, until a line begins with a space or the input ends; its filter expressions select the first so many active measurements that are no statistics.", "quantifier": "all sequences of measurements, packets, connections and losses, with all readings of the clock, and all input", "why_tests_cant": "What is shown depends on when packets come and on what came before; tests would have to wait for seconds and see a few sequences.", "anchors": ["examples/SimpleSubscribe/SimpleSubscribe.go:L34-L74", "examples/SimpleResubscribe/SimpleResubscribe.go:L36-L99", "examples/AdvancedSubscribe/AdvancedSubscribe.go:L47-L123", "examples/SimpleResubscribe/ParseCmdLineArgs.go:L59-L62", "sttp/Subscriber.go:L692-L724"]}
{"id": "C142", "title": "Infinities and NaN are read from text", "statement": "Wherever a text becomes a Double or Single (Convert, IsNumeric, a computed column, a document), inf and infinity with or without a sign and nan are read as what they name, in capital or small letters, and no other text without a digit is a number; an infinity or NaN that is written is read as itself; converting such a number ends no program; of two numbers so read exactly one of less, equal and greater holds.", "quantifier": "all texts without a digit, in every spelling, and all Doubles and Singles", "why_tests_cant": "There are unboundedly many texts and 2^54 NaNs; tests try a few spellings and seldom one of these where a number is expected.", "anchors": ["sttp/data/ValueExpression.go:L551", "sttp/data/ExpressionTree.go:L1942", "sttp/data/DataRow.go:L360-L363", "sttp/data/DataSet.go:L301-L304"]}
{"id": "C143", "title": "Sets of any comparable type", "statement": "A HashSet of any comparable type, floating-point numbers included, is a set up to ==: after any history of operations Contains, Add, Remove, RemoveWhere and the length are as the set operations make of the values put in, equal ones counted once; Clear empties it; a set is equal to, a subset and a superset of itself.", "quantifier": "all comparable types without interfaces, all histories of operations", "why_tests_cant": "Histories are unbounded, and tests use element types whose == is an equality; a NaN as key behaves unlike any other value.", "anchors": ["sttp/hashset/HashSet.go:L34-L302"]}
{"id": "C144", "title": "A GUID in an expression is read", "statement": "Every text that the grammar of expressions takes for a GUID, in quotes, in braces or bare and with or without each of the dashes, is the Guid of its 32 digits; none is refused.", "quantifier": "every text of 32 hexadecimal digits in either case, with any of the four dashes, in each of the three forms", "why_tests_cant": "The sixteen choices of dashes in three forms and the digits are more than tests try, which write GUIDs as they are printed; the grammar and the library that reads the text differ in a few of them.", "anchors": ["sttp/data/FilterExpressionSyntax.g4:L296-L300", "sttp/data/FilterExpressionParser.go:L491-L506", "sttp/data/FilterExpressionParser.go:L1085-L1092", "sttp/data/FilterExpressionParser.go:L1490-L1504", "sttp/guid/Guid.go"]}
