{"id": "C01", "title": "Field headers round-trip", "statement": "Encoding a header from a field number, a field type and a 40-bit size and decoding it again yields the same three values; the encoder refuses (panics) exactly when the size does not fit in 40 bits; every 8-byte string is the encoding of exactly one triple.", "quantifier": "every field number in uint16, every type in uint8, every size in uint64, every 8-byte string", "why_tests_cant": "2^64 header values; a test samples boundary values but cannot exclude a bit leaking between the packed fields.", "anchors": ["clawc/languages/go/segment/header.go: EncodeHeader, DecodeHeader, EncodeHeaderFieldNum, EncodeHeaderFieldType, EncodeHeaderFinal40, DecodeHeaderFinal40"]}
{"id": "C02", "title": "Map headers and Any headers round-trip", "statement": "The key type, value type and 24-bit size packed in a map header, and the real type and 32-bit size packed in an Any header, come back unchanged; the map encoder refuses sizes above 2^24-1.", "quantifier": "every key/value type, every size", "why_tests_cant": "Same packed-bits argument as C01.", "anchors": ["clawc/languages/go/segment/header.go: EncodeMapHeader, DecodeMapHeader", "clawc/languages/go/segment/any.go: EncodeAnyHeader, DecodeAnyHeader"]}
{"id": "C03", "title": "A struct behaves as a record: get returns the last set, other fields untouched", "statement": "After any sequence of scalar, string, bytes, nested-struct sets and clears on a struct, each getter returns the value given by the last set of that field (the zero value if none or cleared), whatever was done to the other fields in between.", "quantifier": "every schema size, every sequence of operations of any length, every value, every field number in range", "why_tests_cant": "Insertions and removals move every later field; a wrong offset update only shows for particular orders of present fields and sizes.", "anchors": ["clawc/languages/go/segment/struct.go: insertField, removeField, findInsertPosition, updateFieldOffsets", "clawc/languages/go/segment/scalar.go", "clawc/languages/go/segment/bytes.go: SetBytes, GetBytes, SetNestedStruct", "clawc/languages/go/segment/segment.go: InsertAt, RemoveAt, ReplaceAt"]}
{"id": "C04", "title": "Marshal then Unmarshal preserves every field", "statement": "Unmarshalling into a fresh struct of the same schema what Marshal returned yields, for every field, the value the sender's getter returned.", "quantifier": "every schema, every history of sets/clears before Marshal, every field", "why_tests_cant": "The decoder re-derives every field boundary from the bytes; agreement with the encoder must hold for every mixture of field kinds and lengths.", "anchors": ["clawc/languages/go/segment/struct.go: Marshal, Unmarshal, FieldOffset", "clawc/languages/go/segment/bytes.go: parseFieldIndex"]}
{"id": "C05", "title": "Encoding is canonical and sparse", "statement": "The marshalled bytes depend only on the current field values, not on the order or number of operations that produced them: two histories ending in the same values give identical bytes; fields at their zero value occupy no bytes; present fields appear in increasing field number.", "quantifier": "every pair of histories of any length over every schema", "why_tests_cant": "Quantifies over pairs of unbounded histories.", "anchors": ["clawc/languages/go/segment/struct.go: insertField, removeField, Marshal", "docs/encoding/encoding.md"]}
{"id": "C06", "title": "Declared sizes match and messages are 8-byte aligned", "statement": "The size in the root header equals the number of bytes returned by Marshal, every field starts and ends on an 8-byte boundary as the encoding document says, and so the result can be given to pack.Pack.", "quantifier": "every reachable struct", "why_tests_cant": "Depends on every combination of field kinds and lengths.", "anchors": ["clawc/languages/go/segment/struct.go: updateHeaderSize, Marshal", "clawc/languages/go/segment/lists.go: Numbers.SyncToSegment, Structs.SyncToSegment", "docs/encoding/encoding.md", "languages/go/pack/pack.go: Pack"]}
{"id": "C07", "title": "Schema evolution: readers with fewer or more fields", "statement": "A message written with a newer schema (more fields) is read by an older schema with all common fields intact, and one written with an older schema is read by a newer one with the added fields at their zero value.", "quantifier": "every message, every pair of schema sizes", "why_tests_cant": "Quantifies over all messages and all pairs of schema lengths.", "anchors": ["clawc/languages/go/segment/bytes.go: parseFieldIndex", "clawc/languages/go/segment/struct.go: FieldOffset, HasField"]}
{"id": "C08", "title": "Decoding arbitrary bytes terminates without a crash", "statement": "Unmarshal on any byte string either returns an error or leaves a struct on which every getter returns; it never hangs or panics.", "quantifier": "every byte string", "why_tests_cant": "The adversary picks the bytes; fuzzing samples them.", "anchors": ["clawc/languages/go/segment/struct.go: Unmarshal", "clawc/languages/go/segment/bytes.go: parseFieldIndex, GetBytes, GetNestedStruct"]}
{"id": "C09", "title": "Bool lists survive encoding", "statement": "A bool list written and read back has the same length and items.", "quantifier": "every list of booleans", "why_tests_cant": "Bit packing has 8 residues and unbounded length.", "anchors": ["clawc/languages/go/segment/lists.go: Bools.SyncToSegment", "clawc/languages/go/segment/getters.go: GetListBools"]}
{"id": "C10", "title": "Number lists survive encoding", "statement": "A list of 8/16/32/64-bit numbers or floats written and read back has the same length and items bit for bit; Get, Set, Append and SetAll on the list behave as on a Go slice.", "quantifier": "every item width, every list, every sequence of list operations", "why_tests_cant": "Unbounded lists of arbitrary bit patterns.", "anchors": ["clawc/languages/go/segment/lists.go: Numbers", "clawc/languages/go/segment/getters.go: GetListNumbers, SetListNumbersRaw"]}
{"id": "C11", "title": "String and bytes lists survive encoding", "statement": "A list of strings (or byte slices) written and read back has the same length and items.", "quantifier": "every list of byte strings", "why_tests_cant": "The failure depends on the total encoded length modulo 8.", "anchors": ["clawc/languages/go/segment/lists.go: Strings.SyncToSegment, Bytes.SyncToSegment", "clawc/languages/go/segment/getters.go: GetListStrings, GetListBytes"]}
{"id": "C12", "title": "Struct lists survive encoding", "statement": "A list of structs written and read back has the same number of items and each item has the same fields.", "quantifier": "every list of structs", "why_tests_cant": "Unbounded list of unbounded items.", "anchors": ["clawc/languages/go/segment/lists.go: Structs.SyncToSegment, parseFromSegment"]}
{"id": "C13", "title": "Maps behave as finite maps with sorted keys", "statement": "After any sequence of Set, Delete and Clear, Get and Has answer as a mathematical map would, Len counts distinct keys and Keys is strictly sorted and duplicate free, values aligned with keys.", "quantifier": "every sequence of operations, every key type with its order", "why_tests_cant": "Binary search over parallel slices: errors appear only for particular key orders and lengths.", "anchors": ["clawc/languages/go/segment/maps.go: Set, Get, Delete, Has, Keys, Values, Clear, findKey, findInsertPos, compareKeys"]}
{"id": "C14", "title": "Maps survive encoding", "statement": "A map written and read back has exactly the same keys and values.", "quantifier": "every map", "why_tests_cant": "Depends on encoded length modulo 8 and on key/value types.", "anchors": ["clawc/languages/go/segment/maps.go: SyncToSegment, encodeKeyAt, encodeValueAt, ParseMapFromSegment, decodeKey, decodeValue, GetMapScalar"]}
{"id": "C15", "title": "Any values are type-safe and round-trip", "statement": "A struct stored in an Any field decodes to the same bytes when read as the same type, and reading it as a type with a different identity fails with an error and leaves the target unchanged.", "quantifier": "every struct value, every pair of type hashes", "why_tests_cant": "Quantifies over all values and hashes.", "anchors": ["clawc/languages/go/segment/any.go: SetAny, GetAny, GetAnyRaw"]}
{"id": "C16", "title": "Lists of Any round-trip", "statement": "Each element of a []Any field decodes with the bytes and type identity it was stored with, in order.", "quantifier": "every list of (hash, struct) pairs", "why_tests_cant": "Unbounded lists; sizes found by scanning.", "anchors": ["clawc/languages/go/segment/any.go: SetListAny, GetListAnyRaw", "clawc/languages/go/segment/bytes.go: parseFieldIndex"]}
{"id": "C17", "title": "IsSet tracking is faithful and harmless", "statement": "With IsSet enabled the appended bit field has the bit of a field set exactly when that field is currently set, and appending it does not change what any getter returns after decoding.", "quantifier": "every schema size, every history", "why_tests_cant": "The bit field is later parsed as if it were a field header; the effect depends on the schema size and on which fields are set.", "anchors": ["clawc/languages/go/segment/struct.go: SetIsSetEnabled, markFieldSet, appendIsSetBitfield", "clawc/languages/go/segment/bytes.go: parseFieldIndex"]}
{"id": "C18", "title": "List edits reach the encoded message", "statement": "Whatever a list accessor shows (after appends, sets, deletions) is what the next Marshal encodes.", "quantifier": "every interleaving of list edits, field reads and marshals", "why_tests_cant": "Depends on the order of accessor calls, edits and earlier marshals.", "anchors": ["clawc/languages/go/segment/struct.go: RegisterDirtyList, syncDirtyLists", "clawc/languages/go/segment/lists.go", "clawc/languages/go/segment/getters.go"]}
{"id": "C19", "title": "Writing one field's nested view never corrupts siblings", "statement": "Modifying a nested struct obtained from a decoded parent does not change the values of the parent's other fields.", "quantifier": "every parent, child and modification", "why_tests_cant": "Shared backing arrays: corruption shows only when the child grows and capacity remains.", "anchors": ["clawc/languages/go/segment/bytes.go: GetNestedStruct", "clawc/languages/go/segment/segment.go: InsertAt, EnsureCapacity"]}
{"id": "C20", "title": "Unmarshal replaces the previous contents", "statement": "Unmarshalling into a struct yields exactly the fields of the new message, whatever the struct held before.", "quantifier": "every previous content, every message", "why_tests_cant": "Quantifies over pairs of messages; stale index entries show only for fields absent from the second.", "anchors": ["clawc/languages/go/segment/struct.go: Unmarshal, ensureFieldIndexParsed", "clawc/languages/go/segment/bytes.go: parseFieldIndex"]}
{"id": "C21", "title": "Applying a diff reproduces the target", "statement": "Apply(base, Diff(base, target)) makes base equal to target.", "quantifier": "every pair of structs of the same schema", "why_tests_cant": "Quantifies over all pairs of values.", "anchors": ["languages/go/patch/diff.go: Diff", "languages/go/patch/apply.go: Apply"]}
{"id": "C22", "title": "A diff is empty exactly when nothing changed", "statement": "Diff(a, b) contains no operation if and only if all supported fields of a and b are equal.", "quantifier": "every pair of structs", "why_tests_cant": "Quantifies over all pairs of values.", "anchors": ["languages/go/patch/diff.go: Diff, diffNumber, diffBytes, diffListNumbers"]}
{"id": "C23", "title": "Patch limits are enforced before any effect", "statement": "A patch with more than 10000 operations is rejected and changes nothing; nested patches deeper than 100 levels are rejected.", "quantifier": "every patch", "why_tests_cant": "Quantifies over patches of any length and depth.", "anchors": ["languages/go/patch/apply.go: Apply, applyStructPatch, applyListStructPatch"]}
{"id": "C24", "title": "List edits in a patch have slice semantics", "statement": "List set, insert and remove operations act like the corresponding edits of a Go slice, and out-of-range indices are errors that leave the list unchanged.", "quantifier": "every list, index and item", "why_tests_cant": "All indices and lengths.", "anchors": ["languages/go/patch/apply.go: applyListSet, applyListInsert, applyListRemove"]}
{"id": "C25", "title": "Packing round-trips", "statement": "Unpack(Pack(x)) = x for every x whose length is a multiple of 8, and Pack rejects other lengths.", "quantifier": "every byte string", "why_tests_cant": "Run-length coding with 255-word runs: boundary cases at arbitrary positions.", "anchors": ["languages/go/pack/pack.go: Pack, Unpack, packInto, unpackInto"]}
{"id": "C26", "title": "Packing never overruns its buffer", "statement": "The packed form never exceeds the worst-case size the packer allocates.", "quantifier": "every byte string with length a multiple of 8", "why_tests_cant": "A worst case over all inputs.", "anchors": ["languages/go/pack/pack.go: maxPackedSize, packInto"]}
{"id": "C27", "title": "Unpacking hostile input is safe", "statement": "Unpack on any byte string either returns an error or output of the declared size; it never panics or writes outside its output.", "quantifier": "every byte string", "why_tests_cant": "Adversarial input space.", "anchors": ["languages/go/pack/pack.go: Unpack, unpackInto, unpackWord"]}
{"id": "C28", "title": "Retry makes a bounded number of calls and returns an honest result", "statement": "The retry interceptor calls the server at most MaxAttempts times, stops at the first success or non-retryable error, and returns the result of the last call made (or the context error).", "quantifier": "every sequence of call outcomes, every policy, every cancellation time", "why_tests_cant": "Unbounded outcome sequences.", "anchors": ["rpc/retry/retry.go: UnaryClientInterceptor, isRetryable"]}
{"id": "C29", "title": "Hedging returns a success if any attempt succeeds", "statement": "The hedging interceptor starts at most MaxHedged+1 attempts, returns the first success it receives, and returns an error only when all attempts failed, one failed fatally, or the context ended.", "quantifier": "every schedule of starts, completions, timer firings and cancellations", "why_tests_cant": "Concurrent interleavings.", "anchors": ["rpc/hedge/hedge.go: UnaryClientInterceptor, isFatal"]}
{"id": "C30", "title": "Metadata keys are case-insensitive and contexts are isolated", "statement": "Get after Set with any capitalisation of the key returns the value; appending metadata to a context never changes the metadata of the parent context.", "quantifier": "every key, value and sequence of operations", "why_tests_cant": "All strings and histories.", "anchors": ["rpc/metadata/metadata.go"]}
{"id": "C31", "title": "Service configuration picks the most specific match", "statement": "The configuration used for a method is that of the most specific pattern that matches (exact, then package/service/*, then package/*/*, then */*/*); setting one property of a pattern keeps the other.", "quantifier": "every configuration, every method", "why_tests_cant": "All configurations.", "anchors": ["rpc/serviceconfig/serviceconfig.go: GetMethodConfig, SetTimeout, SetWaitForReady, ParsePattern"]}
{"id": "C32", "title": "Resolver targets round-trip", "statement": "Parsing a target and printing it gives a target that parses to the same value; malformed targets are rejected.", "quantifier": "every string", "why_tests_cant": "All strings.", "anchors": ["rpc/transport/resolver/parse.go: Parse, String"]}
{"id": "C33", "title": "Balancers always pick an offered connection and are fair", "statement": "Every picker returns one of the candidates (or none when there are none); round robin gives every candidate the same number of picks over any n consecutive picks; weighted round robin gives each candidate exactly its weight over a full cycle; priority picks minimal priority.", "quantifier": "every candidate list, every starting counter", "why_tests_cant": "All list lengths, weights and counter values.", "anchors": ["rpc/client/pool/balancer.go", "rpc/transport/resolver/picker.go"]}
{"id": "C34", "title": "Handler registration never overwrites", "statement": "Registering a handler under a name already taken fails and leaves the registry unchanged; lookup returns exactly the handler registered for that package, service and call.", "quantifier": "every history of registrations and every lookup", "why_tests_cant": "Histories and name collisions of any shape.", "anchors": ["rpc/server/registry.go"]}
{"id": "C35", "title": "Interceptors run in the order given", "statement": "A chain of interceptors runs outermost first in the given order and the handler is called with what the innermost passes on.", "quantifier": "every list of interceptors", "why_tests_cant": "Unbounded chain length.", "anchors": ["rpc/interceptor/chain.go"]}
{"id": "C36", "title": "Handler errors reach the client as errors", "statement": "An error returned by a handler is reported to the client with a code other than 'none' and the code equals the error's category.", "quantifier": "every error value", "why_tests_cant": "All categories.", "anchors": ["rpc/server/handlers.go: errCodeFromError", "rpc/errors/errors.go"]}
{"id": "C37", "title": "Server sessions: no send on or double close of a session channel", "statement": "For every sequence of incoming messages the server never closes a session's receive channel twice and never delivers a payload after closing it.", "quantifier": "every sequence of frames from a client, including hostile ones", "why_tests_cant": "Unbounded frame histories.", "anchors": ["rpc/server/conn.go: handleOpen, handleClose, handlePayload, handleCancel, serve"]}
{"id": "C38", "title": "Session identifiers are never reused on a connection", "statement": "Two sessions opened on one connection have different identifiers and none is zero.", "quantifier": "every history of opens", "why_tests_cant": "Counter wrap-around after 2^32 opens.", "anchors": ["rpc/server/conn.go: handleOpen"]}
{"id": "C39", "title": "Graceful shutdown drains", "statement": "Once a server connection starts a graceful close no new session is accepted, and graceful close returns success only when every running handler has finished.", "quantifier": "every interleaving of opens, handler completions and the close", "why_tests_cant": "Interleavings.", "anchors": ["rpc/server/conn.go: GracefulClose, handleOpen, runHandler"]}
{"id": "C40", "title": "The connection limit holds", "statement": "The server never serves more connections at once than its configured maximum.", "quantifier": "every interleaving of accepts and closes", "why_tests_cant": "Interleavings.", "anchors": ["rpc/server/server.go: Serve"]}
{"id": "C41", "title": "Replies reach the call that asked", "statement": "A synchronous call returns a payload only if it carries that call's request identifier on that session; replies are not delivered to other calls.", "quantifier": "every interleaving of concurrent calls and replies", "why_tests_cant": "Interleavings.", "anchors": ["rpc/client/sync.go", "rpc/client/client.go: handlePayload"]}
{"id": "C42", "title": "Packing negotiation keeps both ends in agreement", "statement": "At any time the receiver decodes a frame in the form (packed or plain) in which the sender wrote it.", "quantifier": "every history of opens, acks, payloads on a connection", "why_tests_cant": "Histories of both ends.", "anchors": ["rpc/client/client.go: sendMsg, readLoop, handleOpenAck", "rpc/server/conn.go: handleOpen, sendMsg, serve"]}
{"id": "C43", "title": "The pool uses only healthy connections and shuts down cleanly", "statement": "A call is sent only on a connection in the ready state; after Close no call is sent; a connection once ready becomes usable; Close may be called repeatedly.", "quantifier": "every interleaving of connects, failures, health checks, calls and closes", "why_tests_cant": "Interleavings.", "anchors": ["rpc/client/pool/pool.go", "rpc/client/pool/subconn.go", "rpc/client/pool/health.go"]}
{"id": "C44", "title": "Compression is transparent", "statement": "Decompressing what was compressed with the same algorithm returns the input; an unknown algorithm is an error, never silently passed through.", "quantifier": "every payload, every registry of lawful compressors", "why_tests_cant": "All payloads.", "anchors": ["rpc/compress/compress.go"]}
{"id": "C45", "title": "Credentials never leave over an insecure connection", "statement": "If any configured credential requires transport security, a call over an insecure connection fails before sending; composed credentials merge with later ones winning.", "quantifier": "every list of credentials and connection security level", "why_tests_cant": "All lists.", "anchors": ["rpc/credentials/credentials.go", "rpc/client/client.go: applyCredentials"]}
{"id": "C46", "title": "Validators guard requests and responses", "statement": "With a validator registered, a request that fails validation never reaches the handler and a response that fails validation is never returned.", "quantifier": "every request, response and validator", "why_tests_cant": "All values.", "anchors": ["rpc/validate/validate.go"]}
{"id": "C47", "title": "Schema compiler accepts only dense field numbers", "statement": "A struct is accepted exactly when its field numbers are 0..n-1 without repetition, and the compiled fields are in numeric order.", "quantifier": "every list of declared field numbers", "why_tests_cant": "All permutations and sizes.", "anchors": ["clawc/internal/idl/idl.go: Struct.fields, Struct.field"]}
{"id": "C48", "title": "Enum values are representable and renderable", "statement": "An accepted enum has distinct names and distinct values that fit its declared width, and rendering it never fails.", "quantifier": "every list of enumerators", "why_tests_cant": "All value sets.", "anchors": ["clawc/internal/idl/idl.go: Enum.parse, OrderByValues, OrderByNames"]}
{"id": "C49", "title": "Replaying recorded mutations reproduces the struct", "statement": "With recording on, applying the recorded operations to a copy of the starting struct yields the final struct.", "quantifier": "every starting struct and mutation history", "why_tests_cant": "All histories.", "anchors": ["clawc/languages/go/segment/struct.go: RecordOp, DrainRecordedOps", "languages/go/patch/apply.go"]}
{"id": "C50", "title": "Type registration in pools is lost-update free", "statement": "Concurrent registrations of segment pools never lose one another and repeated registration keeps the first pool.", "quantifier": "every interleaving of registrations", "why_tests_cant": "Interleavings of compare-and-swap loops.", "anchors": ["clawc/languages/go/segment/segment.go: RegisterPool"]}
{"id": "C51", "title": "Bit utilities do what they say", "statement": "Setting a bit range and reading it back returns the value and leaves the other bits; set, clear and get of single bits agree.", "quantifier": "every width, position and value", "why_tests_cant": "All positions and values.", "anchors": ["clawc/internal/bits/bits.go"]}
{"id": "C52", "title": "Health service reports the last status set", "statement": "Check returns the last status set for a service, 'serving' initially for the overall service, and 'unknown' for services never set.", "quantifier": "every history of status changes", "why_tests_cant": "All histories.", "anchors": ["rpc/health/service.go"]}
{"id": "C53", "title": "Generic number encoding round-trips", "statement": "Writing a number of any fixed-width type into a buffer and reading it back as the same type returns the number, and only the bytes of its width change.", "quantifier": "every number type, value and buffer", "why_tests_cant": "All types, values and buffers.", "anchors": ["clawc/internal/binary/binary.go: Put, Get, PutBuffer"]}
{"id": "C54", "title": "Payloads reach only their session, in order", "statement": "The payloads a server handler receives are among the payloads the client sent with that session's identifier, in the order sent; none is duplicated, reordered or taken from another session.", "quantifier": "every sequence of client frames and every interleaving of handlers, closes and cancels", "why_tests_cant": "Interleavings of the read loop with the handlers cannot be enumerated by tests.", "anchors": ["rpc/server/conn.go: serve, handlePayload, handleClose, handleCancel"]}
{"id": "C55", "title": "Server frames of a session are bracketed", "statement": "For each session the server writes its OpenAck first, then payloads, then at most one Close, and nothing of that session afterwards.", "quantifier": "every sequence of client frames and every interleaving of handlers, on connections with fewer than 2^32 sessions", "why_tests_cant": "Interleavings of the handlers with the read loop cannot be enumerated by tests.", "anchors": ["rpc/server/conn.go: handleOpen, runHandler, sendPayload, sendClose"]}
{"id": "C56", "title": "Every handler learns that its connection ended", "statement": "When the read loop of a server connection has ended, the receive side of every session whose handler still waits or runs is closed, so no handler waits for ever for a payload.", "quantifier": "every sequence of client frames and every interleaving, on connections with fewer than 2^32 sessions", "why_tests_cant": "Interleavings of the read loop, Close, Cancel and the ends of handlers.", "anchors": ["rpc/server/conn.go: serve, handleClose, handleCancel, runHandler"]}
{"id": "C57", "title": "The limit on concurrent handlers holds", "statement": "A server configured with a maximum number of concurrent RPCs never runs more handlers than that at once, and the limit does not stop a connection from making progress.", "quantifier": "every interleaving of opens and ends of handlers on all connections", "why_tests_cant": "Interleavings.", "anchors": ["rpc/server/server.go: WithMaxConcurrentRPCs", "rpc/server/conn.go: newServerConn, handleOpen"]}
{"id": "C58", "title": "Shutdown stops the server", "statement": "After Shutdown is called no connection is accepted; when it returns all connections it found are closed; when it returns nil no handler is running.", "quantifier": "every interleaving of connections, handlers and calls of Shutdown", "why_tests_cant": "Interleavings.", "anchors": ["rpc/server/server.go: Serve, Shutdown", "rpc/server/conn.go: GracefulClose, Close"]}
{"id": "C59", "title": "Cancelling one call leaves the other calls alone", "statement": "When the context of one call on a synchronous client ends, the other calls in progress on that client are not affected.", "quantifier": "every state of a server connection and every call cancelled on it", "why_tests_cant": "The effect of a cancel depends on what else is in progress at that moment.", "anchors": ["rpc/client/sync.go: doCall", "rpc/client/client.go: sendCancel", "rpc/server/conn.go: handleCancel"]}
{"id": "C60", "title": "A session that ends makes its calls fail", "statement": "When the server closes a session, or the connection ends, every synchronous call in progress on it returns an error; the program does not panic.", "quantifier": "every interleaving of calls and of the read loop, and all payloads", "why_tests_cant": "Which case a select takes when several are ready is random.", "anchors": ["rpc/client/sync.go: doCall", "rpc/client/client.go: handleClose, readLoop"]}
{"id": "C61", "title": "A slow session does not hold up the others", "statement": "A handler that does not take its payloads delays only its own session; the frames of the other sessions of the connection are still handled.", "quantifier": "every state of a server connection with a full session and every continuation", "why_tests_cant": "Tests use handlers that read.", "anchors": ["rpc/server/conn.go: serve, handlePayload"]}
{"id": "C62", "title": "No server can panic a client connection", "statement": "Whatever frames the server sends, in any order, the client connection does not panic: no channel is closed twice and nothing is sent on a closed channel, however the read loop interleaves with opens, readers of streams and calls of Close and GracefulClose.", "quantifier": "every sequence of server frames and every interleaving of the read loop with the callers", "why_tests_cant": "Interleavings, and servers that do not keep to the protocol.", "anchors": ["rpc/client/client.go: readLoop, handleOpenAck, handleClose, handlePayload, GracefulClose, Close"]}
{"id": "C63", "title": "GracefulClose of a client waits for its sessions, and only for them", "statement": "After GracefulClose is called no session is opened; when it returns nil every session was closed by the server; when no session is open it returns.", "quantifier": "every sequence of server frames and every interleaving", "why_tests_cant": "Interleavings of opens, timeouts, GoAway and GracefulClose.", "anchors": ["rpc/client/client.go: GracefulClose, checkDrained, handleGoAway, openSession"]}
{"id": "C64", "title": "A stream that ends without error is complete", "statement": "When the iterator over a stream ends and Err reports no error, the user has seen all the messages the server sent on the stream, in order; when the server closes the stream with an error, Err reports it.", "quantifier": "every sequence of server frames and every interleaving of the read loop with the reader", "why_tests_cant": "The end of the stream, the end of the connection and the reader interleave in many ways.", "anchors": ["rpc/client/client.go: recvIter, handlePayload, handleClose, readLoop"]}
{"id": "C65", "title": "The pool keeps its connections working", "statement": "A connection that is made stays usable until it fails or the pool is closed: frames the server sends are handled and health checks are answered. A connection that fails is replaced, so that calls reach the address again.", "quantifier": "every interleaving of connects, failures, frames, health checks, calls and closes", "why_tests_cant": "The order of the return of the connect task, the read loop and the failure matters; tests that connect by hand do not go through the connect task.", "anchors": ["rpc/client/pool/subconn.go: connectWithRetry, tryConnect, handleConnectionFailure", "rpc/client/pool/pool.go: isConnectionError", "rpc/client/client.go: readLoop, waitForReady"]}
{"id": "C66", "title": "Messages on a connection keep their boundaries", "statement": "Messages written one after another on a connection, plain or packed, are read back one by one with the same contents, however the transport splits the bytes and whatever earlier messages left in pooled buffers; a stream that ends between messages is reported as the end, one that ends inside a message as an error other than the regular end.", "quantifier": "every sequence of messages, every split of the bytes into reads, every place where the stream may end", "why_tests_cant": "A transport may split the bytes anywhere; tests use pipes that do not.", "anchors": ["clawc/languages/go/segment/struct.go: UnmarshalReader", "rpc/client/client.go: readLoop, readPackedMsg, sendMsg", "rpc/server/conn.go: serve, readPackedMsg, sendMsg"]}
{"id": "C67", "title": "What a peer can make a reader allocate is bounded", "statement": "The memory a peer can make the receiver of a connection ask for is bounded by the maximum message size the receiver is configured with, or at least by what the peer has sent.", "quantifier": "every byte stream a peer may send, every configured maximum", "why_tests_cant": "All byte streams; the largest ones do not fit in a test.", "anchors": ["clawc/languages/go/segment/struct.go: UnmarshalReader", "rpc/client/client.go: readPackedMsg, WithMaxRecvMsgSize", "rpc/server/conn.go: readPackedMsg, handlePayload", "rpc/server/server.go: WithMaxRecvMsgSize"]}
{"id": "C68", "title": "A received message stays what it was", "statement": "A message handed to a handler or a caller keeps the contents with which it was sent for as long as it is held, whatever other messages are received and sent by the process meanwhile; what a sender writes to its connection is the message it was given.", "quantifier": "every interleaving of readers and senders of all connections of the process", "why_tests_cant": "Which pooled buffer is reused when depends on the scheduler and the garbage collector.", "anchors": ["rpc/server/conn.go: readPackedMsg, handlePayload, sendMsg", "rpc/client/client.go: readPackedMsg, sendMsg", "languages/go/pack/pack.go: bufferPool, Pack, Unpack, Release"]}
{"id": "C69", "title": "A field has the type its declaration writes", "statement": "In a schema that compiles, every field has exactly the type its declaration writes, whether the structs and enums it names are declared before it or after; a type that names nothing, or is no type, makes compilation fail.", "quantifier": "every schema file: any number of structs and enums in any order, any types, maps of any depth", "why_tests_cant": "All declaration orders and type expressions.", "anchors": ["clawc/internal/idl/idl.go: Struct.field, parseMapType, Struct.Render, File.FindNext"]}
{"id": "C70", "title": "Names in a schema are unique", "statement": "In a schema that compiles no two structs or enums have the same name, nor two enumerators of an enum, nor two fields of a struct.", "quantifier": "every schema file", "why_tests_cant": "All files.", "anchors": ["clawc/internal/idl/idl.go: File.FindNext, Enum.parse, Struct.fields"]}
{"id": "C71", "title": "Ingest is the inverse of Walk", "statement": "Ingesting the tokens that Walk gives for a struct into a new struct of the same type gives an equal struct: the same scalars, enum numbers (declared or not), strings, bytes, nil and non-nil structs, lists, maps and Any values at every depth. Two different structs have different token streams.", "quantifier": "every struct declaration with distinct field names, recursive ones included, whose map values are scalars, strings, structs, Any or []Any; every value of any depth and size; with and without IgnoreUnknownFields; whatever follows in the stream", "why_tests_cant": "All declarations and all values, with unbounded nesting.", "anchors": ["clawc/internal/render/golang/templates/clawiter.tmpl: Walk", "clawc/internal/render/golang/templates/clawingest.tmpl: Ingest, XXXIngestFrom", "clawc/languages/go/clawiter/token.go"]}
{"id": "C72", "title": "A token reader may ignore fields it does not know", "statement": "With IgnoreUnknownFields, ingesting the tokens of a struct written with other declarations gives the reader's own fields with the values of the fields of the same name, at every depth, and skips the others whatever their type and value; without it, an unknown field is an error.", "quantifier": "every pair of declarations that agree on the types of the fields they share, every value", "why_tests_cant": "All pairs of schemas and all nested unknown values.", "anchors": ["clawc/languages/go/clawiter/ingest.go: SkipValue, skipStruct, skipList, skipListStructs, skipMap", "clawc/internal/render/golang/templates/clawingest.tmpl: XXXIngestFrom"]}
{"id": "C73", "title": "Ingest replaces what a struct held", "statement": "After ingesting the tokens of a struct, the receiving struct equals the struct the tokens came from, whatever it held before.", "quantifier": "every struct declaration, every old and new contents", "why_tests_cant": "All pairs of contents.", "anchors": ["clawc/internal/render/golang/templates/clawingest.tmpl: Ingest, XXXIngestFrom"]}
{"id": "C74", "title": "Walk stops when its callback says so", "statement": "Walk calls its callback with the tokens of the struct in order, nested structs included, until the callback returns false; after that it does not call it again.", "quantifier": "every struct value, every callback, whatever it bases its answers on", "why_tests_cant": "All callbacks and all places to stop.", "anchors": ["clawc/internal/render/golang/templates/clawiter.tmpl: Walk"]}
{"id": "C75", "title": "Strings survive JSON", "statement": "Every string that is written as JSON is a valid JSON string, in UTF-8 and without control characters; a JSON reader reads it back as the same string, where every byte that belongs to no character has been replaced by U+FFFD. Two different UTF-8 strings are written differently.", "quantifier": "every string of bytes, valid UTF-8 or not, whatever follows it in the text", "why_tests_cant": "All strings, with every mixture of escapes, characters of one to four bytes and broken sequences.", "anchors": ["languages/go/clawjson/clawjson.go: appendEscapedString"]}
{"id": "C76", "title": "Marshal writes JSON", "statement": "What Marshal writes for a struct is one well formed JSON object with a member for every field, in order; what an Array writes is one well formed JSON array of such objects.", "quantifier": "every struct declaration with UTF-8 names, recursive ones included, and every value at every depth; any number of structs in an Array", "why_tests_cant": "All declarations and all nested values.", "anchors": ["languages/go/clawjson/clawjson.go: Marshal, writeJSON, writeValue, Array.Write, Array.Close"]}
{"id": "C77", "title": "Unmarshal is the inverse of Marshal", "statement": "Unmarshalling into a new struct the JSON that Marshal wrote for a struct gives an equal struct.", "quantifier": "every struct declaration with distinct UTF-8 names, recursive ones included, and every value at every depth; with and without numbers for enums; with and without ignoring unknown fields", "why_tests_cant": "All declarations and all nested values, all floats, all strings.", "anchors": ["languages/go/clawjson/clawjson.go: Marshal, writeJSON, writeValue, Unmarshal, jsonToTokens", "clawc/internal/render/golang/templates/clawingest.tmpl: Ingest, XXXIngestFrom"]}
{"id": "C78", "title": "Unmarshal accepts only JSON of the right types", "statement": "Unmarshal returns an error if its input is not one well formed JSON object, or if a member has not the JSON type of the field it names or a number does not fit the field.", "quantifier": "every input text, every struct declaration", "why_tests_cant": "All texts.", "anchors": ["languages/go/clawjson/clawjson.go: Unmarshal, jsonToTokens", "clawc/internal/render/golang/templates/clawingest.tmpl: XXXIngestFrom"]}
{"id": "C79", "title": "Maps keep their keys in JSON", "statement": "A map is written as a JSON object with one member for every entry, whose name tells the key; no two members have the same name.", "quantifier": "every type of keys, every map", "why_tests_cant": "All maps.", "anchors": ["languages/go/clawjson/clawjson.go: writeJSON", "clawc/languages/go/clawiter/token.go: KeyString"]}
{"id": "C80", "title": "Bytes and Any values can be read from JSON", "statement": "A bytes field, and every item of a list of bytes, is written as base64 that decodes to the bytes. An Any whose type is not registered is written with its type hash in hexadecimal and its bytes in base64; one whose type is registered with its hash, the name of its type and its fields.", "quantifier": "all bytes, all type hashes, every depth of Any values", "why_tests_cant": "All byte strings, of every length modulo 3.", "anchors": ["languages/go/clawjson/clawjson.go: writeValue, appendHex"]}
{"id": "C81", "title": "Strings come back from text", "statement": "A string field that is valid UTF-8 comes back unchanged when the text Marshal wrote for its struct is unmarshalled, whatever quotes, backslashes, white space and control characters are in it.", "quantifier": "all UTF-8 strings of any length; every indentation of blanks and tabs", "why_tests_cant": "All strings: where quotes, commas and white space stand decides how the line is cut into words.", "anchors": ["languages/go/clawtext/writer.go: appendEscapedString, writeValue", "languages/go/clawtext/parser.go: parseField, parseQuotedString, unquoteString"]}
{"id": "C82", "title": "Unmarshal is the inverse of Marshal for text", "statement": "Unmarshalling into a new struct the text that Marshal wrote for a struct gives an equal struct.", "quantifier": "every struct declaration with distinct names, recursive ones included, and every value at every depth; all options of Marshal; with and without ignoring unknown fields", "why_tests_cant": "All declarations and all nested values, all floats, all strings.", "anchors": ["languages/go/clawtext/writer.go: writeClawtext, writeValue", "languages/go/clawtext/parser.go: textToTokens, parseField, parseArray, parseMapEntries", "languages/go/clawtext/clawtext.go: Marshal, Unmarshal"]}
{"id": "C83", "title": "Unmarshal accepts only text of the right form and types", "statement": "Unmarshal of text returns an error if there is something after the end of the struct or after a value, if a value has not the type of the field it is for, or if a number does not fit the field.", "quantifier": "every text, every struct declaration", "why_tests_cant": "All texts.", "anchors": ["languages/go/clawtext/parser.go: parseFields, parseField, emitNumber, parseRawString", "languages/go/clawtext/clawtext.go: Unmarshal"]}
{"id": "C84", "title": "Comments and blank lines do not change a text", "statement": "A blank line, a comment that starts with // on a line of its own and a comment between /* and */ over any number of lines may be put between any two lines of a text, outside of strings and other comments, without a change of what Unmarshal gives; of a line with a comment, only the comment is ignored.", "quantifier": "every text, every position between lines outside of strings and comments, every comment", "why_tests_cant": "All texts, positions and comments.", "anchors": ["languages/go/clawtext/parser.go: skipCommentsAndWhitespace"]}
{"id": "C85", "title": "Texts in the documented form are read", "statement": "A list in brackets with its items separated by commas, a list of structs in braces, a map after @map with the colon at the key, a string in backquotes over several lines, true, false and null followed by a comma, a hexadecimal number, an Any with its type in parentheses and several fields on one line, each written as docs/clawtext/clawtext.md shows, are read by Unmarshal as the values they denote.", "quantifier": "every list, map, string, number and field, of any size, over any lines", "why_tests_cant": "All values and all ways to lay them out.", "anchors": ["languages/go/clawtext/parser.go: parseField, parseArrayElements, parseMapEntries, parseRawString", "docs/clawtext/clawtext.md"]}
{"id": "C86", "title": "claw.mod files are read as documented", "statement": "A claw.mod file made of a module line, blank lines, comments after //, a require block, a replace block and a list of ACLs or the public setting, as docs/modules/modules.md describes them, is read as the module path, the required versions, the replacements and the ACLs it lists.", "quantifier": "every file of these parts, with any number of entries, any paths, any comments and any indentation", "why_tests_cant": "All files and all orders of the parts.", "anchors": ["clawc/internal/imports/imports.go: Module.Start, Module.parse", "clawc/internal/imports/imports.go: Require.parse, Replace.parse, ACLs.parse", "docs/modules/modules.md"]}
{"id": "C87", "title": "clawc init leaves files that clawc can read", "statement": "The claw.work and claw.mod files that clawc init writes are read back as the repository, the vendor directory and the module path, and the module is in the repository; a module counts as in a repository exactly if its path is that of the repository or continues it after a slash.", "quantifier": "every repository path, vendor directory and directory in the repository that can be written in such a file", "why_tests_cant": "All paths.", "anchors": ["clawc/clawc.go: init", "clawc/internal/work/work.go: Parse, ValidateModuleInRepo", "clawc/internal/imports/imports.go: Module.Validate"]}
{"id": "C88", "title": "A local.replace file replaces packages", "statement": "A local.replace file in the form of docs/replace/replace.md is read as the replacements it lists, by clawc when it collects dependencies and when it reads imports.", "quantifier": "every list of replacements, with any paths, comments and indentation", "why_tests_cant": "All files.", "anchors": ["clawc/internal/imports/imports.go: LocalReplace.Start, LocalReplace.Validate, Config.Read", "clawc/internal/vendor/vendor.go: parseLocalReplace", "docs/replace/replace.md"]}
{"id": "C89", "title": "The claw.mod of a vendored package is that of the package", "statement": "The claw.mod file written into the vendor directory for a package is read back as the module it was written for.", "quantifier": "every module that was read from a claw.mod file", "why_tests_cant": "All modules.", "anchors": ["clawc/internal/vendor/vendor.go: writeModuleFile, serializeModule", "clawc/internal/imports/imports.go: Module.Start"]}
{"id": "C90", "title": "All packages that a file needs are collected", "statement": "clawc collects exactly the packages that a file imports, directly or through others, each once and with all its imports; it fails if one of them cannot be had or if packages import each other in a cycle, and it always ends with a result or an error.", "quantifier": "every set of files and imports, every module file and replacements, `clawc` and `clawc get`, in and out of a git repository", "why_tests_cant": "The import graphs, which are unbounded in size and shape.", "anchors": ["clawc/internal/vendor/vendor.go: processClawFile, processSingleDependency, applyReplaceDirectives, resolveVersion", "docs/schema_language/schema_language.md"]}
{"id": "C91", "title": "Packages are compiled after those that they import", "statement": "The order of compilation has every package once, and each package after all packages that it imports. There is an order exactly if no package imports itself, directly or through others.", "quantifier": "every dependency graph, the packages being visited in any order", "why_tests_cant": "The graphs and the orders of Go's map iteration.", "anchors": ["clawc/internal/vendor/vendor.go: GetCompilationOrder"]}
{"id": "C92", "title": "Only those that a module lets in can import it", "statement": "A file is compiled only if every package that it needs has a claw.mod file that is public or that has a rule for the module: its path, or the path of a module above it followed by /*.", "quantifier": "every set of packages, module files and rules", "why_tests_cant": "The combinations of packages, locations and rules.", "anchors": ["clawc/internal/vendor/vendor.go: checkACLPermission, validateACLs, getModuleFile", "docs/modules/modules.md", "docs/compilation/compilation.md"]}
{"id": "C93", "title": "Imports are read to the end and cycles are refused", "statement": "When a file is compiled, the packages that it imports, directly or through others, are all read, and no others. The compilation fails exactly if one of them cannot be read or if packages import each other in a cycle, and reading always ends.", "quantifier": "every set of files and imports, for the reader of the repository and the reader of the vendor directory", "why_tests_cant": "The import graphs, which are unbounded in size and shape.", "anchors": ["clawc/internal/imports/imports.go: Config.Read, read, readLocal, readRemote, VendoredConfig.Read, readVendored", "docs/schema_language/schema_language.md"]}
{"id": "C94", "title": "Packages of the repository are told from those of others", "statement": "A package is taken for one of the repository exactly if its path is that of the repository or below it; then it is looked for in its directory of the repository and its import path in Go is the same. All other packages are imported from the vendor directory, no two from the same place.", "quantifier": "every repository and package path", "why_tests_cant": "The pairs of paths.", "anchors": ["clawc/internal/vcs/vcs.go: InRepo, Abs", "clawc/internal/imports/imports.go: TransformImportPath, read, readVendored", "clawc/clawc.go: isLocalDependency, compileLocalDependency"]}
{"id": "C95", "title": "clawc get fetches the version it is asked for", "statement": "`clawc get package@version` splits its argument at the sign; a version that is the name of a tag of the repository is the commit of that tag, any other is taken for the hash of a commit, and no version makes clawc panic.", "quantifier": "every package, version and set of tags", "why_tests_cant": "The versions and tags.", "anchors": ["clawc/clawc.go: parsePackageSpec", "clawc/internal/imports/git/git.go: versionCheckout, semanticCheckout, Version.FromString"]}
{"id": "C96", "title": "Reflection reads and writes single values like the generated methods", "statement": "For a bool, number, enum, string or bytes field, `Set` through reflection does what the generated setter does with the same value, `Get` returns the value that the generated getter returns, the zero value of the type if the field is not set, and `Has` reports whether the field is populated.", "quantifier": "every struct that a program can make, every such field and value, every enum group", "why_tests_cant": "The structs, field types and values; enums of other packages and numbers without names are rarely tried.", "anchors": ["languages/go/reflect/internal/value/impl.go: StructImpl.Get, Set, Has, GetValue, SetField", "languages/go/reflect/internal/value/value.go: Any, Enum", "languages/go/reflect/internal/interfaces/interfaces.go: Struct"]}
{"id": "C97", "title": "A struct is copied field by field through reflection", "statement": "A program that makes a new struct with `New` and sets in it every populated field that `Range` hands on gets a struct that marshals to the same bytes, and the source is unchanged.", "quantifier": "every struct that a program can make, with fields of any type", "why_tests_cant": "The combinations of populated fields and their types.", "anchors": ["languages/go/reflect/internal/value/impl.go: StructImpl.New, Range, Get, Set", "languages/go/reflect/internal/interfaces/interfaces.go: Struct.Range"]}
{"id": "C98", "title": "Reflection shows the items of a list", "statement": "A list that is read through reflection has the items that the generated accessor shows, whether or not they are marshaled yet, and reading it changes neither what the accessor shows nor what is marshaled later.", "quantifier": "every list type and list, every struct that has it", "why_tests_cant": "The types, lengths and contents of lists and what is done after they are read.", "anchors": ["languages/go/reflect/internal/value/impl.go: GetValue, getListBools, getListNumbers, getListBytes, getListStrings, getListStructs", "clawc/languages/go/segment/lists.go: NewStrings, NewBytes, NewNumbers"]}
{"id": "C99", "title": "A field that is cleared through reflection is gone", "statement": "After `Clear` through reflection `Has` is false for the field, and the struct marshals as one in which the generated method has cleared the field.", "quantifier": "every struct that a program can make, fields of any type", "why_tests_cant": "The structs and field types.", "anchors": ["languages/go/reflect/internal/value/impl.go: StructImpl.Clear, ClearField", "languages/go/reflect/internal/interfaces/interfaces.go: Struct.Clear"]}
{"id": "C100", "title": "What NewField returns can be set", "statement": "`NewField` returns for every field a value that `Set` accepts for the field: the default value of a scalar, an empty list or an empty struct of the type of the field.", "quantifier": "every field of every struct type", "why_tests_cant": "The field types, and structs that were reached through other structs.", "anchors": ["languages/go/reflect/internal/value/impl.go: StructImpl.NewField", "languages/go/reflect/internal/interfaces/interfaces.go: Struct.NewField"]}
{"id": "C101", "title": "Every reflected value can be printed", "statement": "`String` of a value returns a text: the string itself, the name of an enum, the fields of a struct in braces; it never panics.", "quantifier": "every value that `Get` returns", "why_tests_cant": "The values, in particular those with fields that are not set.", "anchors": ["languages/go/reflect/internal/value/value.go: Value.String", "languages/go/reflect/internal/interfaces/interfaces.go: Value.String"]}
{"id": "C102", "title": "Only those allowed may ask the reflection service", "statement": "With `AllowedCIDRs` set, a call is answered only if the address of the peer is in one of the ranges; with a `TokenValidator` set, only if it accepts the first value of the configured header, whatever its case; with both set, only if both hold, and then it is answered. A configuration is accepted exactly when every range can be read.", "quantifier": "every configuration, every peer address, IPv4 and IPv6, every transport, every metadata", "why_tests_cant": "The ranges, addresses and headers; a test tries a few, and none a caller who writes the forwarding header.", "anchors": ["rpc/reflection/config.go: Config.Validate", "rpc/reflection/config.go: Config.IsIPAllowed", "rpc/reflection/service.go: Server.checkAccess", "rpc/reflection/service.go: extractIP", "rpc/transport/http/server.go: Handler.remoteAddr"]}
{"id": "C103", "title": "The reflection service lists exactly what is registered, in order", "statement": "`ListServices` gives every package, service and method registered and no other, each once, with the type of the handler a call would reach, in ascending order of names and whatever the order of the registry's map; `GetServiceInfo` and `GetMethodInfo` find a service or a method exactly when it is registered, and agree with the listing.", "quantifier": "every sequence of registrations, every name asked for", "why_tests_cant": "The sets of handlers and the orders in which a Go map is visited.", "anchors": ["rpc/reflection/service.go: Server.ListServices", "rpc/reflection/service.go: Server.GetServiceInfo", "rpc/reflection/service.go: Server.GetMethodInfo", "rpc/server/registry.go: Registry.Handlers"]}
{"id": "C104", "title": "A stream transport delivers messages whole and in order", "statement": "Whatever the interleaving of goroutines that write to one TCP or Unix transport, the connection gets the messages of the `Write` calls that succeeded, each whole and once, in one order that agrees with the order of every goroutine's own calls; at most the beginning of one more message follows, that of a `Write` still running or failed.", "quantifier": "every interleaving of any number of goroutines, every message, every failure of the network", "why_tests_cant": "Interleavings of any number of writers with failures.", "anchors": ["rpc/transport/tcp/client.go: ClientTransport.Write", "rpc/transport/unix/client.go: ClientTransport.Write", "rpc/transport/tcp/server.go: ServerTransport.Write"]}
{"id": "C105", "title": "Every call on a stream transport returns", "statement": "Once the network has answered, every `Read`, `Write`, `Close` and `Reconnect` returns, and `Close` makes a call that waits for the network return.", "quantifier": "every interleaving of any number of goroutines, every failure of the network", "why_tests_cant": "A deadlock needs one interleaving out of very many.", "anchors": ["rpc/transport/tcp/client.go: ClientTransport.Write", "rpc/transport/tcp/client.go: ClientTransport.cleanupLocked", "rpc/transport/tcp/client.go: ClientTransport.Close", "rpc/transport/tcp/server.go: ServerTransport.Close"]}
{"id": "C106", "title": "Closing a stream transport closes every connection it made", "statement": "After `Close` has returned, every connection the transport has made is closed, and every later `Read` and `Write` fails.", "quantifier": "every interleaving of any number of goroutines that read, write, reconnect and close", "why_tests_cant": "Interleavings of reconnecting and closing.", "anchors": ["rpc/transport/tcp/client.go: ClientTransport.connect", "rpc/transport/tcp/client.go: ClientTransport.Reconnect", "rpc/transport/tcp/client.go: ClientTransport.Close"]}
{"id": "C107", "title": "No connection that comes in is lost", "statement": "A connection that comes in to a TCP or Unix listener is returned by exactly one call of `Accept`, or waits, or is closed; a loop that accepts gets them in the order in which they came; after `Close` no call gets a new one and none is left waiting; `Server.Close` closes all connections.", "quantifier": "every interleaving of connections coming in, calls of `Accept`, contexts being cancelled and closing", "why_tests_cant": "Interleavings of cancellation with the goroutine that accepts.", "anchors": ["rpc/transport/tcp/server.go: Listener.Accept", "rpc/transport/tcp/server.go: Listener.Close", "rpc/transport/tcp/server.go: Server.Serve", "rpc/transport/tcp/server.go: Server.Close", "rpc/transport/unix/server.go: Listener.Accept"]}
{"id": "C108", "title": "A Unix listener owns its socket file", "statement": "`Listen` removes or replaces no file that is not a socket, leaves every other path alone, and makes at the path a socket that at no moment has more than the configured permissions; while a listener is open its path leads to its socket; `Close` removes that socket and nothing else.", "quantifier": "every state of the files, every sequence of listeners made and closed, every mode and process mask", "why_tests_cant": "States of the file system between the system calls, and orders in which listeners are made and closed.", "anchors": ["rpc/transport/unix/server.go: Listen", "rpc/transport/unix/server.go: Listener.Close", "rpc/transport/unix/options.go: defaultConfig"]}
{"id": "C109", "title": "The telemetry interceptors do not change what a call gives", "statement": "With the OpenTelemetry interceptors installed, a call runs the handler once with the same request, gives its response, fails exactly when it fails, reaches the client with the same error code, and with metrics on is counted once, as a failure exactly when it failed.", "quantifier": "every configuration, every handler and what it does, every error, every chain the interceptor is part of", "why_tests_cant": "Errors are trees of wrapped errors, and chains are arbitrary.", "anchors": ["rpc/interceptor/otel/otel.go: Interceptor.UnaryServerInterceptor", "rpc/interceptor/otel/otel.go: Interceptor.StreamServerInterceptor", "rpc/interceptor/otel/otel.go: Interceptor.UnaryClientInterceptor", "rpc/server/handlers.go: errCodeFromError"]}
{"id": "C110", "title": "A call a trace rule names is traced", "statement": "If a range, a method or a metadata rule of `TraceRules` applies to a call, it is traced whatever the sampler says; a rule for a method applies to its full name or to whole parts at its end; a configuration is refused exactly when a range cannot be read.", "quantifier": "every set of rules, every address, method and metadata, every decision of the sampler", "why_tests_cant": "The rules and the calls; a test that asks only `ShouldTrace` does not see whether anyone else asks it.", "anchors": ["rpc/interceptor/otel/config.go: TraceRules", "rpc/interceptor/otel/config.go: TraceRules.ShouldTrace", "rpc/interceptor/otel/otel.go: New", "rpc/interceptor/otel/otel.go: Interceptor.UnaryServerInterceptor"]}
{"id": "C111", "title": "Closing the HTTP client transport ends its connections", "statement": "Once `Close` has marked the HTTP client transport closed, every request it ever sent is given up, every pipe is closed, so no call is left waiting on one, and `Connected` is false, for good; later `Read`, `Write` and `Reconnect` calls fail with `ErrClosed` and a later `Close` returns no error; no `Reconnect` succeeds after `Close` has returned, and no interleaving with `Close` panics.", "quantifier": "every interleaving of any number of goroutines that read, write, reconnect, close and ask", "why_tests_cant": "Interleavings of connecting and closing.", "anchors": ["rpc/transport/http/client.go: ClientTransport.Close", "rpc/transport/http/client.go: ClientTransport.connect", "rpc/transport/http/client.go: ClientTransport.cleanupLocked"]}
{"id": "C112", "title": "An HTTP client transport is one connection carrying whole messages", "statement": "Whatever the interleaving of goroutines, the server gets on each connection of an HTTP client transport the messages of the `Write` calls that succeeded on it, each whole and in order, and at most the beginning of one more; a transport that says it is connected has an accepted request that is kept up, and `Write` writes to it; `Reconnect` returns no error only with a connection; no call panics.", "quantifier": "every interleaving of any number of goroutines that read, write, reconnect and close, every answer of the server", "why_tests_cant": "Interleavings of calls that reconnect.", "anchors": ["rpc/transport/http/client.go: ClientTransport.connect", "rpc/transport/http/client.go: ClientTransport.Write", "rpc/transport/http/client.go: ClientTransport.Reconnect"]}
{"id": "C113", "title": "An HTTP connection lasts until it is closed and is reported truthfully", "statement": "The connection made by `Dial` or `Reconnect` is kept up by the client until `Close` or `Reconnect`; `Connected` is false after it has failed; `Err` is about the present connection; `Dial` gives up after the time set with `WithDialTimeout`.", "quantifier": "every interleaving of any number of goroutines, contexts ending and failures of the network, every time limit", "why_tests_cant": "Orders of contexts ending, failures and calls.", "anchors": ["rpc/transport/http/client.go: Dial", "rpc/transport/http/client.go: ClientTransport.connect", "rpc/transport/http/client.go: ClientTransport.Connected", "rpc/transport/http/client.go: ClientTransport.Err", "rpc/transport/http/options.go: WithDialTimeout"]}
{"id": "C114", "title": "Which HTTP requests become RPC connections", "statement": "The HTTP handler serves exactly the POST requests without a content type or with that of the protocol, on a response that can be flushed; the others get 405, 415 or 500, in this order; the request of the client is served whatever other headers its caller configures; an endpoint of another protocol version is refused by either side.", "quantifier": "every request, every configured header, every version", "why_tests_cant": "Requests and headers are arbitrary.", "anchors": ["rpc/transport/http/server.go: Handler.ServeHTTP", "rpc/transport/http/client.go: ClientTransport.connect"]}
{"id": "C115", "title": "An HTTP server transport and its handler", "statement": "Once the transport of a served request is closed, and so once `ServeHTTP` has returned, nothing more is written to the response, the request body has been closed once, every later `Close` gives the answer of the first and every later `Read` and `Write` fails; until a write fails the response is the messages of the successful `Write` calls, whole, in order and flushed; `Close` ends every call in progress and `ServeHTTP` returns once its server is done.", "quantifier": "every interleaving of any number of goroutines, every failure of the network", "why_tests_cant": "Interleavings of writing and closing.", "anchors": ["rpc/transport/http/conn.go: serverTransport.Write", "rpc/transport/http/conn.go: serverTransport.Close", "rpc/transport/http/server.go: Handler.ServeHTTP"]}
{"id": "C116", "title": "What the DNS resolver makes of an endpoint", "statement": "The resolver of the scheme dns gives for an endpoint that names a host and a port one address per IP of the answer of the name server, in its order and with that port, or the IP itself if the host is one; a name or an IP alone, an IPv6 address in brackets alone and an empty port get port 443; each address splits back into that IP and port; only the name server of the authority is asked; SRV records are used where there are any.", "quantifier": "every endpoint, every answer of the name server", "why_tests_cant": "Endpoints and answers are arbitrary, and IPv6 addresses contain the separator.", "anchors": ["rpc/transport/resolver/dns/dns.go: dnsResolver.Resolve", "rpc/transport/resolver/dns/dns.go: builder.Build"]}
{"id": "C117", "title": "A resolving dialer connects to what the name stands for", "statement": "`Dial` of a resolving dialer connects only to an address its resolver gave; a target without a scheme is dialled as it stands, and of a `passthrough` target the endpoint; `Dial` succeeds whenever one of the addresses takes connections.", "quantifier": "every target, every picker, every answer of the resolver, every set of addresses that take connections, every number of calls before", "why_tests_cant": "Sets of addresses of which some are down, after any number of calls.", "anchors": ["rpc/transport/transport.go: NewResolvingDialer", "rpc/transport/transport.go: ResolvingDialer.Dial"]}
{"id": "C118", "title": "A health check over the wire gives the status that was set last", "statement": "A request that a client encodes for a service, answered by `Check` and decoded by the client, gives what `ServingStatus` gives for that service: the status set last; without one, `Serving` for the empty name and `ServiceUnknown` for any other.", "quantifier": "every history of statuses set, every service with a name of fewer than 2^32-32 bytes", "why_tests_cant": "Histories and names are arbitrary.", "anchors": ["rpc/health/service.go: Server.Check", "rpc/health/service.go: Server.SetServingStatus", "rpc/health/service.go: Server.ServingStatus"]}
{"id": "C119", "title": "What the handler of a stream receives", "statement": "The `Recv` iterator of a server stream gives the messages the client sent, from the first on, in order, each once and none after the end of the stream; it ends only at that end, when the session is closed and everything that came is given, or when its context has ended and everything that came before is given, or when the loop over it stops, after which it gives nothing more; it does not wait once either has happened; `Err` tells a stream that ended from one that was cut.", "quantifier": "every sequence of payloads, every interleaving of their arrival, of closing, cancelling and reading, every callback", "why_tests_cant": "Interleavings of arrival, cancelling and reading.", "anchors": ["rpc/server/handlers.go: BiDirStream.Recv", "rpc/server/handlers.go: RecvStream.Recv", "rpc/server/handlers.go: BiDirStream.Err", "rpc/server/handlers.go: RecvStream.Err"]}
{"id": "C120", "title": "An interceptor stands between a stream and its handler", "statement": "With stream interceptors installed the handler runs with the context and the stream that the last of them hands on, which may be a stream of its own; what the first of them returns is what the client is told; a handler that is not called does not run; `Send` of the stream an interceptor gets sends the message or fails.", "quantifier": "every chain of interceptors, every handler of the three kinds", "why_tests_cant": "Interceptors are arbitrary functions, and chains of any length.", "anchors": ["rpc/server/conn.go: ServerConn.runBiDirHandler", "rpc/server/conn.go: ServerConn.runSendHandler", "rpc/server/conn.go: ServerConn.runRecvHandler", "rpc/server/handlers.go: recvStreamAdapter.Send"]}
{"id": "C121", "title": "Trailers reach the client", "statement": "The trailer of a stream is the union of the metadata given to `SetTrailer`, where a later value of a key replaces an earlier one, as they were when they were given; the Close message carries exactly that, and the client can read it.", "quantifier": "every sequence of calls and metadata", "why_tests_cant": "Sequences of maps that share keys and buffers.", "anchors": ["rpc/server/handlers.go: BiDirStream.SetTrailer", "rpc/server/handlers.go: BiDirStream.Trailer", "rpc/server/conn.go: ServerConn.sendClose", "rpc/client/client.go: Conn.handleClose"]}
{"id": "C122", "title": "What is sent on a stream of the client", "statement": "`Send` on a `BiDirClient` or `SendClient` that returns without an error has sent its message exactly once, one that fails has sent nothing; messages are sent in the order of calls that do not overlap; `Send` called after `CloseSend` or `Close` sends nothing and fails; the end of the stream and Close are each sent at most once; a handler that reads to the end receives all messages sent before `CloseSend`, `Close` or `Cancel`, in that order, and never anything that was not sent; a message whose `Send` returned without an error is received.", "quantifier": "every number of goroutines calling `Send`, `CloseSend`, `Close` and `Cancel`, every interleaving of them with lost connections, ended contexts, the Close of the server and the handler", "why_tests_cant": "Interleavings of any number of goroutines on both ends.", "anchors": ["rpc/client/bidir.go: BiDirClient.Send", "rpc/client/bidir.go: BiDirClient.CloseSend", "rpc/client/bidir.go: BiDirClient.Close", "rpc/client/bidir.go: BiDirClient.Cancel", "rpc/client/send.go: SendClient.Send", "rpc/client/send.go: SendClient.Close", "rpc/client/client.go: Conn.sendPayload"]}
{"id": "C123", "title": "The Go package generated for a schema compiles, as far as its names go", "statement": "For every schema the compiler accepts, the Go package it writes declares no name twice, declares methods only for types it declares, refers in the initialisers of its variables only to variables it declares, and has no initialisation cycle.", "quantifier": "every accepted schema: any number of structs, enums and fields, any names, any nesting of struct types", "why_tests_cant": "Names of any length and schemas of any size; each pair of names can clash in its own way.", "anchors": ["clawc/internal/idl/struct.tmpl", "clawc/internal/render/golang/templates/mappings.tmpl", "clawc/internal/render/golang/templates/reflect.tmpl", "clawc/internal/render/golang/templates/enums.tmpl", "clawc/internal/render/golang/golang.go: Renderer.Render"]}
{"id": "C124", "title": "Conversion to and from Raw structs loses nothing", "statement": "For every struct of a schema, the plain Go struct that ToRaw gives holds the value of every field, and NewFooFromRaw of it makes a struct that marshals to the same bytes. For every Raw struct, NewFooFromRaw stores the value of every field, and ToRaw of the result gives the Raw struct back. The order in which the entries of a Go map are visited makes no difference.", "quantifier": "every schema, every nesting of structs and lists of structs, every value and every nil in every field, every program of setter calls that built the struct, every order of the entries of a map", "why_tests_cant": "Schemas and values nest without bound; every combination of nil, empty and zero behaves in its own way; the order of a Go map is random.", "anchors": ["clawc/internal/idl/struct.tmpl: NewFooFromRaw, ToRaw", "clawc/internal/idl/idl.go: RawGoType"]}
{"id": "C125", "title": "An options line means what it says", "statement": "The schema compiler accepts an options line exactly if it is a bracketed list of options separated by commas, each a name of letters and numbers with quoted arguments in parentheses, with spaces between them as one likes and a comment at the end; the options it takes from the line are those the line says. A file with an options line is valid exactly if the line says the one option IsSet().", "quantifier": "every line, every number of options and arguments, every name and text, every layout, every Unicode table", "why_tests_cant": "Lines of any length; the parser remembers the last rune and the last that is no space, so what it does depends on the whole prefix.", "anchors": ["clawc/internal/idl/options.go: Options.parse, parseOptions, parseArgs, valIsSet", "clawc/internal/idl/idl.go: ParseOptions, Validate"]}
{"id": "C126", "title": "The lines at the head of a schema file come once and in place", "statement": "A schema file is accepted only if it has at most one version line, one options line and one import block, options and imports stand before all structs and enums, no option is given twice, the version is 0 and all options are known; and such a file is not rejected for these lines.", "quantifier": "every sequence of lines and blocks of a file", "why_tests_cant": "Sequences of any length in any order.", "anchors": ["clawc/internal/idl/idl.go: FindNext, ParseVersion, ParseOptions, Validate"]}
{"id": "C127", "title": "Struct types are told apart and found, and generated packages can be used together", "statement": "The hash that names the type of an `Any` is taken of something that is different for different struct types; in a program, the type of that hash is found exactly if a package of the program has it, whatever the order of initialisation; a program starts with any set of generated packages.", "quantifier": "every set of generated packages of any size, every order of initialisation, every path and name", "why_tests_cant": "Sets of packages of any size and order; two copies of a package meet only in a program of several repositories.", "anchors": ["clawc/internal/idl/idl.go: Struct.TypeHash", "languages/go/reflect/runtime/runtime.go: RegisterPackage", "languages/go/reflect/runtime/runtime.go: RegisterTypeHash", "languages/go/reflect/runtime/runtime.go: LookupTypeHash", "clawc/internal/render/golang/templates/reflect.tmpl: init", "clawc/internal/imports/imports.go: Config.TransformImportPath"]}
{"id": "C128", "title": "The compiler writes what it generates and reports failures", "statement": "When the compiler writes the generated files it returns an error exactly if a file could not be written or the directory of a package is not known; it ends; it touches no other files; if there is no error every generated package has its files beside its schema or in the vendor directory, each with what was generated for it, in files that are part of the Go package.", "quantifier": "every number of packages and every interleaving of their goroutines, every order of the additional files, every failure of writing", "why_tests_cant": "One goroutine per package and an arbitrary order of the files of a map.", "anchors": ["clawc/internal/writer/golang/golang.go: Writer.WriteFiles", "clawc/internal/writer/golang/golang.go: goErrors", "clawc/internal/writer/writer.go: Writer.Write", "clawc/internal/render/golang/golang.go: Renderer.RenderAdditionalFiles", "clawc/internal/imports/imports.go: Config.ShouldWriteFile", "clawc/internal/imports/imports.go: VendoredConfig.Abs"]}
{"id": "C129", "title": "The Go files generated for a schema import what they name", "statement": "The Go files generated for a schema bind each package they name to the package that is meant, use all they import and bind no name twice or over one they need: whatever the package is called, whatever valid package names and renames are imported, and whatever enums, structs and lists of either are taken from them.", "quantifier": "every set of imports with different names, every list of fields of any of the four kinds with types of other packages", "why_tests_cant": "Names of packages are an unbounded input; that a name meets one of the generated text is found only by compiling the output for that name.", "anchors": ["clawc/internal/render/golang/templates/claw.tmpl", "clawc/internal/render/golang/templates/clawiter.tmpl", "clawc/internal/render/golang/templates/clawingest.tmpl", "clawc/internal/idl/struct.tmpl", "clawc/internal/idl/idl.go: File.PkgImports", "clawc/internal/idl/idl.go: File.ExternalEnumImports", "clawc/internal/idl/idl.go: File.ExternalFieldImports", "clawc/internal/idl/idl.go: ValidPackage"]}
{"id": "C130", "title": "The import block of a schema is read as written", "statement": "An import block with any number of imports, renames, blank lines, comments behind imports and lines with comments gives exactly the imports it lists, each under its rename or the last element of its path, and leaves the rest of the file. It is refused if it imports nothing, gives a name twice, gives a name that is no name of a package, or has a path with no package or with no quotes just around it. A name is found exactly if the block gives it, with its path.", "quantifier": "every list of lines of any length, every indentation, rename, path and comment, every rest of the file", "why_tests_cant": "Texts of any length with any mix of lines.", "anchors": ["clawc/internal/idl/idl.go: Import.parse", "clawc/internal/idl/idl.go: validImportPath", "clawc/internal/idl/idl.go: withoutCommentEOL", "clawc/internal/idl/idl.go: pkgFromImpPath", "clawc/internal/idl/idl.go: Import.ByPkgName", "clawc/internal/idl/idl.go: ValidPackage"]}
{"id": "C131", "title": "The schema file of a package is fetched from its repository", "statement": "For a package and a version, a hash of a commit or the name of a tag, the only schema file in the directory of the package at that version is given; a global.replace file leads on to another package, of the same or another repository, at most four times. With no version it is the latest one, and the version that comes with a file gives the same file again. Everything else is an error; there is no panic.", "quantifier": "every set of repositories, commits, tags and directories, every path and version, every chain of global.replace files", "why_tests_cant": "Repositories of others, and chains of replacements through them.", "anchors": ["clawc/internal/imports/git/git.go: GetClawFile", "clawc/internal/imports/git/git.go: cloneRepo", "clawc/internal/imports/git/git.go: versionCheckout", "clawc/internal/imports/git/git.go: FindClawFile", "clawc/internal/imports/git/git.go: GetLatestVersion", "clawc/internal/imports/globalreplace/globalreplace.go: GlobalReplace.ParseWith"]}
{"id": "C132", "title": "The compiler finds the git repository it is in", "statement": "Inside a work tree of git 2.18.0 or newer the compiler takes the root of that work tree, and host/path of the remote origin for its name, however the remote is written and wherever the work tree is. With an older git or outside a work tree it does without; there is no panic.", "quantifier": "every version and output of git version, every directory of a work tree, every remote", "why_tests_cant": "Tests have one git, one checkout and one remote (the only test runs on one named machine).", "anchors": ["clawc/internal/vcs/vcs.go: NewGit", "clawc/internal/vcs/vcs.go: Version.FromString", "clawc/internal/vcs/vcs.go: Version.meetsMin", "clawc/internal/vcs/vcs.go: Root", "clawc/internal/vcs/vcs.go: Origin", "clawc/internal/vcs/vcs.go: InRepo"]}
{"id": "C133", "title": "Keepalive closes dead connections and only those", "statement": "A client connection on which nothing is received for the ping interval sends a ping. A connection whose peer answers in time, or from which something is received in every interval, is never closed by this; a connection from whose peer nothing comes any more is closed after two intervals and the timeout at most. This holds for every interval and timeout, however the streams of the connection are used.", "quantifier": "every interval and timeout, every sequence of messages in time, every outcome of writes", "why_tests_cant": "Timeouts, dead peers, full buffers and slow readers are not met in tests.", "anchors": ["rpc/client/client.go: pingLoop", "rpc/client/client.go: handlePong", "rpc/client/client.go: markActivity", "rpc/client/client.go: readLoop", "rpc/client/client.go: WithPingInterval"]}
{"id": "C134", "title": "clawc init sets up a module, and clawc finds its claw.work", "statement": "clawc uses the nearest claw.work file from the directory up. `clawc init` writes a claw.mod file for a module with the path of the repository and the way from the directory of claw.work, writing a claw.work file at the top of the git work tree if there is none; it overwrites no file, and afterwards clawc finds the claw.work file and the module is in its repository. `clawc` with a schema file or directory compiles that.", "quantifier": "every set of files, directories, remotes and arguments", "why_tests_cant": "File systems and work trees of all shapes.", "anchors": ["clawc/clawc.go: main", "clawc/clawc.go: handleInit", "clawc/internal/work/work.go: FindWork", "README.md"]}
{"id": "C135", "title": "The Go code generated for a map field compiles", "statement": "For every map field the compiler accepts, the Go code it generates for the field type checks: the type arguments satisfy the constraints of the segment package, every name it uses is declared as what it is used for, assignments are between identical types, and no local variable is unused. The Go types of keys and values are those of the schema.", "quantifier": "every text of a type that is read as a map, with any key and value and maps of any depth; every set of structs, enums and imports", "why_tests_cant": "Map types nest without bound; the code differs for every kind of value in five templates.", "anchors": ["clawc/internal/idl/idl.go: MapValueGoType, MapRawValueGoType, parseMapType", "clawc/internal/idl/struct.tmpl", "clawc/internal/render/golang/templates/clawiter.tmpl", "clawc/internal/render/golang/templates/clawingest.tmpl", "clawc/internal/render/golang/templates/mappings.tmpl", "clawc/languages/go/segment/maps.go: MapKey, MapValue"]}
{"id": "C136", "title": "Comments of a schema are harmless and reach the Go code", "statement": "Taking the comment lines out of a schema changes nothing of what is parsed but the comments. Whatever a comment says, each line that is written for it to a Go file is a comment and no directive. The comment lines before a struct, enum, field or enumerator are its comment, and their text is written as it stands in the schema.", "quantifier": "every list of lines of a schema, with comments of any text and number anywhere in it", "why_tests_cant": "Comments may hold any text and stand between any two lines.", "anchors": ["clawc/internal/idl/idl.go: CollectComments, Enum.parse, Struct.fields, FindNext", "clawc/internal/idl/struct.tmpl", "clawc/internal/render/golang/templates/enums.tmpl"]}
{"id": "C137", "title": "Lists obtained through reflection can be changed", "statement": "Set stores a value at an index: Get gives it back, through every copy of the list, and no other item changes. Append adds a value at the end. Both panic for a value that is no item of the list, and Get and Set panic for an index outside of it. Type gives the type of the list.", "quantifier": "every kind of list, every length and capacity, every index, every value", "why_tests_cant": "Whether an append is seen depends on capacities and on who holds a copy of the list; values of any type may be passed.", "anchors": ["languages/go/reflect/internal/interfaces/interfaces.go: List", "languages/go/reflect/internal/value/impl.go: ListBools, ListNumbers, ListBytes, ListStrings, ListStructs"]}
{"id": "C138", "title": "The vendor directory is a copy of what was fetched", "statement": "After vendoring, the compiler finds for each external package one schema, with the bytes that were fetched, and its claw.mod. The order in which packages are handled makes no difference. Nothing outside of the vendor directory is written. Vendoring again brings the directory up to date: what belongs to older versions or to packages that are no longer used is gone.", "quantifier": "every set of packages with any paths and contents, every order, every number of runs, every file system to begin with", "why_tests_cant": "Go takes the packages of a map in random order, and what a run leaves depends on all runs before it.", "anchors": ["clawc/internal/vendor/vendor.go: createVendorStructure, vendorPackage, getClawFileName, IsVendored, GetVendoredVersion", "clawc/clawc.go: findClawFileInDir"]}
{"id": "C139", "title": "Reflection describes the schema", "statement": "The description of a generated package lists the structs and enums of its schema and no others. Looked up by name or by number, a struct, field, enum or enumerator is the one that was declared, with its number, type and size, and what is not declared is not found, without a panic. Fields of different types have different descriptions.", "quantifier": "every schema, with any number of structs, enums, fields and enumerators in any order, every name and number that is asked for", "why_tests_cant": "The generated tables are read by index in some places and by name in others, and depend on an order that is not that of the file.", "anchors": ["clawc/internal/render/golang/templates/reflect.tmpl", "clawc/internal/render/golang/templates/mappings.tmpl", "languages/go/reflect/internal/value/impl.go: PackageDescrImpl, StructDescrsImpl, StructDescrImpl, FieldDescrImpl", "languages/go/reflect/enums/enums.go"]}
{"id": "C140", "title": "`clawc` compiles a schema and all it needs", "statement": "When clawc succeeds, Go code has been written for the schema and for every package it needs, directly or through others: for packages of the repository beside their schemas, for others in the vendor directory, each in the directory of its own path. Packages that can be had are compiled wherever the repository is checked out, whatever their paths look like, and where claw.mod replaces a package, the replacement is compiled.", "quantifier": "every file system, repository, claw.mod and set of schemas with any imports, every order in which Go takes the packages", "why_tests_cant": "The command needs git, the network and the go command, and what goes wrong depends on where the checkout is, on how many elements a path has and on which packages have a claw.mod.", "anchors": ["clawc/clawc.go: handleCompile, compileDependencyWithOptions, compileLocalDependency", "clawc/internal/imports/imports.go: VendoredConfig, readConfig, extractModulePathFromDir", "clawc/internal/writer/golang/golang.go"]}
{"id": "C141", "title": "`clawc get` fetches and compiles a package at a version", "statement": "After `clawc get p@v` has succeeded, the vendor directory has the schema of p at version v, and of every package it needs, directly or through others, the one that is to be had; nothing else has changed, and Go code has been written for all of them. Without a version it is the latest. The version stays until another one is asked for, and what claw.mod replaces is replaced.", "quantifier": "every file system, repository, claw.mod, package, version and set of schemas with any imports", "why_tests_cant": "The command needs git and the network; which version is in the vendor directory shows only after later runs of clawc.", "anchors": ["clawc/clawc.go: handleGet", "clawc/internal/vendor/vendor.go: VendorSingleDependency, processSingleDependency"]}
{"id": "C142", "title": "A released struct leaves no trace", "statement": "A struct that `New` makes from the memory of a released one is like one of fresh memory: all its fields are absent, the calls made on it have the results they have on a fresh one, and its message is the same byte for byte. Making, changing, storing and releasing structs changes no other struct in use and no message the program holds. No call on structs in use panics or hangs because of what was released before.", "quantifier": "every sequence of New, calls of setters and getters, storing of one struct in another and Release on any number of structs of any schemas, and every choice of what the pools hand out", "why_tests_cant": "What a pool hands out depends on the scheduler and the garbage collector; a test that reuses memory must happen to get the same buffer, with the fields and sizes that show what was left in it.", "anchors": ["clawc/languages/go/segment/struct.go: New, Release, Unmarshal, UnmarshalReader", "clawc/languages/go/segment/segment.go: SegmentPools, FieldIndexPools, Reset", "clawc/internal/idl/struct.tmpl: Release"]}
{"id": "C143", "title": "The deadline of a call is kept on both sides", "statement": "A call or stream that is opened under a deadline runs under that deadline at the server: its handler always gets a context with a deadline, no later than the one of the caller. A timeout of the service configuration is the time each call has. A call returns when its time is over, whatever the server does.", "quantifier": "every deadline, every time the Open takes and every difference of the clocks, every configuration, every handler and every sequence of requests of a session, every server and transport", "why_tests_cant": "Tests use deadlines of some seconds on a transport without delay, and servers that answer; a deadline that has nearly passed, a stalled transport or a client used longer than its timeout need exact timing.", "anchors": ["rpc/client/client.go: openSession, applyServiceConfig, Sync", "rpc/client/sync.go: Call", "rpc/server/conn.go: handleOpen, runSyncHandler"]}
{"id": "C144", "title": "Goroutines may read a decoded struct at the same time", "statement": "Any number of goroutines call getters of one decoded struct that nobody changes: each call finds what it finds when no other goroutine is there, and the program goes on.", "quantifier": "every message, every number of goroutines and calls, every order of their memory accesses that Go allows", "why_tests_cant": "Which accesses overlap, and what a racing read gives, is up to the scheduler and the processor.", "anchors": ["clawc/languages/go/segment/struct.go: ensureFieldIndexParsed, FieldOffset, HasField, GetList, SetList", "clawc/languages/go/segment/bytes.go: parseFieldIndex", "clawc/languages/go/segment/getters.go: GetListBools, GetListNumbers, GetListStrings, GetListBytes, GetListStructs"]}
{"id": "C145", "title": "Messages over a size limit are rejected, and only those", "statement": "A message that is larger than the limit of its sender is refused with ErrMessageTooLarge and not sent; one that is larger than the limit of its receiver is rejected with that error; zero and less mean no limit. All other messages of a session get through as they are. An end keeps to the size that the other end says it accepts.", "quantifier": "every choice of the four limits, every size and order of messages, every handler, every order of the steps of both ends", "why_tests_cant": "Tests try one limit at one end; what happens depends on both ends and on the other calls of the session.", "anchors": ["rpc/client/client.go: WithMaxRecvMsgSize, WithMaxSendMsgSize, WithMaxPayloadSize, sendPayload, handlePayload", "rpc/server/server.go: WithMaxRecvMsgSize, WithMaxSendMsgSize", "rpc/server/conn.go: sendPayload, handlePayload, runSyncHandler, sendOpenAck"]}
{"id": "C146", "title": "What was read from a struct does not change when other fields are set", "statement": "A byte slice or a nested struct obtained from a struct still shows what it showed when it was obtained, after any calls on other fields of that struct. What is then set in the nested struct is in the message of the struct.", "quantifier": "every struct, new or decoded, every field, every sequence of calls on the other fields", "why_tests_cant": "Depends on the lengths of all fields before the one that was read, and on the room left in the array; most tests read and drop a value at once.", "anchors": ["clawc/languages/go/segment/bytes.go: GetBytes, GetNestedStruct", "clawc/languages/go/segment/struct.go: insertField, removeField", "clawc/languages/go/segment/segment.go: EnsureCapacity, InsertAt, RemoveAt, ReplaceAt"]}
{"id": "C147", "title": "Lists of structs reach the message with their items as they are when it is written", "statement": "After any calls on a struct, on structs made or obtained from its lists, and on those lists (append, replace one, replace all), the next encoded message has each list with exactly its items, as they are at that moment; edits of an item after it was appended count. Encoding does not change the items.", "quantifier": "every struct, new or decoded, every number of lists and items, every sequence of calls with Marshal anywhere in between", "why_tests_cant": "Depends on when a list was obtained, on whether the message was encoded before, and on whether an item was decoded or made; tests build a list once and encode it once.", "anchors": ["clawc/languages/go/segment/lists.go: NewStructs, parseFromSegment, Append, Set, SetAll, SyncToSegment", "clawc/languages/go/segment/struct.go: syncDirtyLists, Marshal", "clawc/languages/go/segment/getters.go: GetListStructs, ClearField"]}
{"id": "C148", "title": "Edits of maps reach the message", "statement": "After any calls on a struct, its maps (set, delete, clear, read) and the structs stored in its maps, the next encoded message has each map with exactly the entries the edits give, in key order, with stored structs as they are at that moment, and the map accessors answer by the same entries.", "quantifier": "every struct, new or decoded, every number and type of maps, every sequence of calls with Marshal anywhere in between", "why_tests_cant": "Depends on whether the map was touched before the last Marshal and on whether it was decoded; tests fill a new map and encode it once.", "anchors": ["clawc/languages/go/segment/maps.go: NewMaps, Set, Delete, Clear, SyncToSegment, GetMap functions", "clawc/languages/go/segment/struct.go: syncDirtyLists, Marshal", "clawc/internal/idl/struct.tmpl: map accessors"]}
{"id": "C149", "title": "A call reaches the handler registered for it, or fails saying why", "statement": "Opening a call gives a session exactly when a handler of its kind is registered for its package, service and method, the server is not draining and the two ends speak the same protocol version; then that handler runs, once, with the metadata of the call. Otherwise no handler runs and the caller gets the error category the server gave.", "quantifier": "every order of registrations, start of draining and calls on a connection, all names, kinds, metadata and versions", "why_tests_cant": "Tests register one handler and call it; what is told to the caller of each kind of rejection, names that coincide when joined, and the wrap of the session counter need all cases.", "anchors": ["rpc/client/client.go: Conn.openSession, Conn.handleOpenAck", "rpc/server/conn.go: ServerConn.handleOpen, ServerConn.runHandler", "rpc/server/registry.go: Registry.Register, Registry.Lookup", "rpc/server/handlers.go: Handler"]}
{"id": "C150", "title": "A call that is retried or hedged is tried again", "statement": "With a retry policy, a call on a synchronous client whose attempt fails with a retryable error invokes the handler again, up to the number of attempts, and the caller gets the first outcome that is a success or not retryable. With hedging, the caller gets the reply that is ready first, and neither leaves the client unusable.", "quantifier": "all policies, handlers that answer every invocation in their own way, sequences of calls, numbers of hedges, times of arrival and handling, and picks of the selects", "why_tests_cant": "Tests of the interceptors use a stub invoker that can be called again after a failure; that the real one cannot shows only in combination with the session.", "anchors": ["rpc/retry/retry.go: UnaryClientInterceptor", "rpc/hedge/hedge.go: UnaryClientInterceptor", "rpc/client/sync.go: SyncClient.Call", "rpc/client/client.go: Conn.handleClose", "rpc/server/conn.go: ServerConn.runSyncHandler, ServerConn.handleCancel"]}
{"id": "C151", "title": "Descriptions of structs are prepared once, and checked", "statement": "Init of a description of a struct ends, prepares it and all descriptions it leads to, each exactly once however often and in whatever order Init is called. MustValidate ends, and panics exactly if a field of a description it leads to is not described as documented.", "quantifier": "all sets of descriptions and all ways in which they point at each other, cycles included; all orders of calls", "why_tests_cant": "Both are recursive over pointers: whether they end and what they reach depends on the whole graph, and tests have small graphs without cycles.", "anchors": ["clawc/languages/go/mapping/mapping.go: Map.Init, Map.MustValidate, FieldDescr.Validate", "clawc/internal/render/golang/templates/mappings.tmpl", "clawc/languages/go/field/field.go: IsValidMapKeyType, IsValidMapValueType"]}
{"id": "C152", "title": "A patch operation that does not fit its field is refused and changes nothing", "statement": "Apply refuses an operation whose kind the field does not have, or whose data is not exactly a value or list of the type of the field. An operation without a patch inside that is refused leaves the struct as it was. Operations and fields it does not know are skipped: no error, no change.", "quantifier": "every struct, schema, field and operation, with any index and any bytes as data", "why_tests_cant": "Patches come from other processes: all kinds of operations on all types with data of all lengths have to be looked at.", "anchors": ["languages/go/patch/apply.go: applyOpWithDepth, applySet, applyClear, applyListReplace, applyListSet, applyListInsert, applyListRemove", "languages/go/patch/encoding.go", "clawc/languages/go/segment/getters.go: SetListNumbersRaw"]}
{"id": "C153", "title": "Metadata made from values holds these values", "statement": "Metadata made with Pairs has, under every key in any capitalisation, the last value given for it and nothing under other keys; it panics exactly if the arguments are not pairs of a string and a string or byte slice. What the caller does with the slices afterwards does not change the metadata.", "quantifier": "all arguments, keys, contents of memory and later writes of the caller", "why_tests_cant": "Whether memory is shared shows only when it is written later; all lists of arguments with repeated keys have to be looked at.", "anchors": ["rpc/metadata/metadata.go: Pairs, Set, Get"]}
{"id": "C154", "title": "Iterators visit the items of the list", "statement": "A loop over All visits the items of the list in order until the body stops, and one over Range(from, to) those with an index in these bounds, cut to the list: no panic, and no item twice. An iterator can be used again and then visits what a new one would. A body that changes the list does not make the loop panic or run forever.", "quantifier": "every list, all bounds, every loop body that does not overwrite items in place, any number of uses", "why_tests_cant": "All bounds, lists and bodies; that the bounds are kept from the first use shows only in a second one on a longer list.", "anchors": ["clawc/languages/go/segment/lists.go: Bools.All, Bools.Range, Numbers.All, Numbers.Range, Strings.All, Strings.Range, Bytes.All, Bytes.Range, Structs.All, Structs.Range"]}
{"id": "C155", "title": "A list of bytes holds values", "statement": "The items of a list of bytes change only through its methods: what a program writes into slices it gave to Append, Set or SetAll, or got from Get, All, Range or Slice, does not change the list. What the list shows is what is written to the message.", "quantifier": "every list, every history of the methods and of writes into slices the program knows", "why_tests_cant": "Whether memory is shared shows only when it is written later; all histories have to be looked at.", "anchors": ["clawc/languages/go/segment/lists.go: Bytes.Append, Bytes.Get, Bytes.Set, Bytes.SetAll, Bytes.All, Bytes.Range, Bytes.Slice, Bytes.SyncToSegment", "clawc/languages/go/segment/getters.go: GetListBytes"]}
