#!/usr/bin/env python3
"""Writes properties.jsonl (one JSON object per line) next to this directory."""
import json, os
SEG = "clawc/languages/go/segment/"
P = []
def p(id, title, statement, quantifier, why, anchors):
    P.append(dict(id=id, title=title, statement=statement, quantifier=quantifier, why_tests_cant=why, anchors=anchors))

p("C01", "Field headers round-trip",
  "Encoding a header from a field number, a field type and a 40-bit size and decoding it again yields the same three values; the encoder refuses (panics) exactly when the size does not fit in 40 bits; every 8-byte string is the encoding of exactly one triple.",
  "every field number in uint16, every type in uint8, every size in uint64, every 8-byte string",
  "2^64 header values; a test samples boundary values but cannot exclude a bit leaking between the packed fields.",
  [SEG+"header.go: EncodeHeader, DecodeHeader, EncodeHeaderFieldNum, EncodeHeaderFieldType, EncodeHeaderFinal40, DecodeHeaderFinal40"])
p("C02", "Map headers and Any headers round-trip",
  "The key type, value type and 24-bit size packed in a map header, and the real type and 32-bit size packed in an Any header, come back unchanged; the map encoder refuses sizes above 2^24-1.",
  "every key/value type, every size",
  "Same packed-bits argument as C01.",
  [SEG+"header.go: EncodeMapHeader, DecodeMapHeader", SEG+"any.go: EncodeAnyHeader, DecodeAnyHeader"])
p("C03", "A struct behaves as a record: get returns the last set, other fields untouched",
  "After any sequence of scalar, string, bytes, nested-struct sets and clears on a struct, each getter returns the value given by the last set of that field (the zero value if none or cleared), whatever was done to the other fields in between.",
  "every schema size, every sequence of operations of any length, every value, every field number in range",
  "Insertions and removals move every later field; a wrong offset update only shows for particular orders of present fields and sizes.",
  [SEG+"struct.go: insertField, removeField, findInsertPosition, updateFieldOffsets", SEG+"scalar.go", SEG+"bytes.go: SetBytes, GetBytes, SetNestedStruct", SEG+"segment.go: InsertAt, RemoveAt, ReplaceAt"])
p("C04", "Marshal then Unmarshal preserves every field",
  "Unmarshalling into a fresh struct of the same schema what Marshal returned yields, for every field, the value the sender's getter returned.",
  "every schema, every history of sets/clears before Marshal, every field",
  "The decoder re-derives every field boundary from the bytes; agreement with the encoder must hold for every mixture of field kinds and lengths.",
  [SEG+"struct.go: Marshal, Unmarshal, FieldOffset", SEG+"bytes.go: parseFieldIndex"])
p("C05", "Encoding is canonical and sparse",
  "The marshalled bytes depend only on the current field values, not on the order or number of operations that produced them: two histories ending in the same values give identical bytes; fields at their zero value occupy no bytes; present fields appear in increasing field number.",
  "every pair of histories of any length over every schema",
  "Quantifies over pairs of unbounded histories.",
  [SEG+"struct.go: insertField, removeField, Marshal", "docs/encoding/encoding.md"])
p("C06", "Declared sizes match and messages are 8-byte aligned",
  "The size in the root header equals the number of bytes returned by Marshal, every field starts and ends on an 8-byte boundary as the encoding document says, and so the result can be given to pack.Pack.",
  "every reachable struct",
  "Depends on every combination of field kinds and lengths.",
  [SEG+"struct.go: updateHeaderSize, Marshal", SEG+"lists.go: Numbers.SyncToSegment, Structs.SyncToSegment", "docs/encoding/encoding.md", "languages/go/pack/pack.go: Pack"])
p("C07", "Schema evolution: readers with fewer or more fields",
  "A message written with a newer schema (more fields) is read by an older schema with all common fields intact, and one written with an older schema is read by a newer one with the added fields at their zero value.",
  "every message, every pair of schema sizes",
  "Quantifies over all messages and all pairs of schema lengths.",
  [SEG+"bytes.go: parseFieldIndex", SEG+"struct.go: FieldOffset, HasField"])
p("C08", "Decoding arbitrary bytes terminates without a crash",
  "Unmarshal on any byte string either returns an error or leaves a struct on which every getter returns; it never hangs or panics.",
  "every byte string",
  "The adversary picks the bytes; fuzzing samples them.",
  [SEG+"struct.go: Unmarshal", SEG+"bytes.go: parseFieldIndex, GetBytes, GetNestedStruct"])
p("C09", "Bool lists survive encoding",
  "A bool list written and read back has the same length and items.",
  "every list of booleans",
  "Bit packing has 8 residues and unbounded length.",
  [SEG+"lists.go: Bools.SyncToSegment", SEG+"getters.go: GetListBools"])
p("C10", "Number lists survive encoding",
  "A list of 8/16/32/64-bit numbers or floats written and read back has the same length and items bit for bit; Get, Set, Append and SetAll on the list behave as on a Go slice.",
  "every item width, every list, every sequence of list operations",
  "Unbounded lists of arbitrary bit patterns.",
  [SEG+"lists.go: Numbers", SEG+"getters.go: GetListNumbers, SetListNumbersRaw"])
p("C11", "String and bytes lists survive encoding",
  "A list of strings (or byte slices) written and read back has the same length and items.",
  "every list of byte strings",
  "The failure depends on the total encoded length modulo 8.",
  [SEG+"lists.go: Strings.SyncToSegment, Bytes.SyncToSegment", SEG+"getters.go: GetListStrings, GetListBytes"])
p("C12", "Struct lists survive encoding",
  "A list of structs written and read back has the same number of items and each item has the same fields.",
  "every list of structs",
  "Unbounded list of unbounded items.",
  [SEG+"lists.go: Structs.SyncToSegment, parseFromSegment"])
p("C13", "Maps behave as finite maps with sorted keys",
  "After any sequence of Set, Delete and Clear, Get and Has answer as a mathematical map would, Len counts distinct keys and Keys is strictly sorted and duplicate free, values aligned with keys.",
  "every sequence of operations, every key type with its order",
  "Binary search over parallel slices: errors appear only for particular key orders and lengths.",
  [SEG+"maps.go: Set, Get, Delete, Has, Keys, Values, Clear, findKey, findInsertPos, compareKeys"])
p("C14", "Maps survive encoding",
  "A map written and read back has exactly the same keys and values.",
  "every map",
  "Depends on encoded length modulo 8 and on key/value types.",
  [SEG+"maps.go: SyncToSegment, encodeKeyAt, encodeValueAt, ParseMapFromSegment, decodeKey, decodeValue, GetMapScalar"])
p("C15", "Any values are type-safe and round-trip",
  "A struct stored in an Any field decodes to the same bytes when read as the same type, and reading it as a type with a different identity fails with an error and leaves the target unchanged.",
  "every struct value, every pair of type hashes",
  "Quantifies over all values and hashes.",
  [SEG+"any.go: SetAny, GetAny, GetAnyRaw"])
p("C16", "Lists of Any round-trip",
  "Each element of a []Any field decodes with the bytes and type identity it was stored with, in order.",
  "every list of (hash, struct) pairs",
  "Unbounded lists; sizes found by scanning.",
  [SEG+"any.go: SetListAny, GetListAnyRaw", SEG+"bytes.go: parseFieldIndex"])
p("C17", "IsSet tracking is faithful and harmless",
  "With IsSet enabled the appended bit field has the bit of a field set exactly when that field is currently set, and appending it does not change what any getter returns after decoding.",
  "every schema size, every history",
  "The bit field is later parsed as if it were a field header; the effect depends on the schema size and on which fields are set.",
  [SEG+"struct.go: SetIsSetEnabled, markFieldSet, appendIsSetBitfield", SEG+"bytes.go: parseFieldIndex"])
p("C18", "List edits reach the encoded message",
  "Whatever a list accessor shows (after appends, sets, deletions) is what the next Marshal encodes.",
  "every interleaving of list edits, field reads and marshals",
  "Depends on the order of accessor calls, edits and earlier marshals.",
  [SEG+"struct.go: RegisterDirtyList, syncDirtyLists", SEG+"lists.go", SEG+"getters.go"])
p("C19", "Writing one field's nested view never corrupts siblings",
  "Modifying a nested struct obtained from a decoded parent does not change the values of the parent's other fields.",
  "every parent, child and modification",
  "Shared backing arrays: corruption shows only when the child grows and capacity remains.",
  [SEG+"bytes.go: GetNestedStruct", SEG+"segment.go: InsertAt, EnsureCapacity"])
p("C20", "Unmarshal replaces the previous contents",
  "Unmarshalling into a struct yields exactly the fields of the new message, whatever the struct held before.",
  "every previous content, every message",
  "Quantifies over pairs of messages; stale index entries show only for fields absent from the second.",
  [SEG+"struct.go: Unmarshal, ensureFieldIndexParsed", SEG+"bytes.go: parseFieldIndex"])
p("C21", "Applying a diff reproduces the target",
  "Apply(base, Diff(base, target)) makes base equal to target.",
  "every pair of structs of the same schema",
  "Quantifies over all pairs of values.",
  ["languages/go/patch/diff.go: Diff", "languages/go/patch/apply.go: Apply"])
p("C22", "A diff is empty exactly when nothing changed",
  "Diff(a, b) contains no operation if and only if all supported fields of a and b are equal.",
  "every pair of structs",
  "Quantifies over all pairs of values.",
  ["languages/go/patch/diff.go: Diff, diffNumber, diffBytes, diffListNumbers"])
p("C23", "Patch limits are enforced before any effect",
  "A patch with more than 10000 operations is rejected and changes nothing; nested patches deeper than 100 levels are rejected.",
  "every patch",
  "Quantifies over patches of any length and depth.",
  ["languages/go/patch/apply.go: Apply, applyStructPatch, applyListStructPatch"])
p("C24", "List edits in a patch have slice semantics",
  "List set, insert and remove operations act like the corresponding edits of a Go slice, and out-of-range indices are errors that leave the list unchanged.",
  "every list, index and item",
  "All indices and lengths.",
  ["languages/go/patch/apply.go: applyListSet, applyListInsert, applyListRemove"])
p("C25", "Packing round-trips",
  "Unpack(Pack(x)) = x for every x whose length is a multiple of 8, and Pack rejects other lengths.",
  "every byte string",
  "Run-length coding with 255-word runs: boundary cases at arbitrary positions.",
  ["languages/go/pack/pack.go: Pack, Unpack, packInto, unpackInto"])
p("C26", "Packing never overruns its buffer",
  "The packed form never exceeds the worst-case size the packer allocates.",
  "every byte string with length a multiple of 8",
  "A worst case over all inputs.",
  ["languages/go/pack/pack.go: maxPackedSize, packInto"])
p("C27", "Unpacking hostile input is safe",
  "Unpack on any byte string either returns an error or output of the declared size; it never panics or writes outside its output.",
  "every byte string",
  "Adversarial input space.",
  ["languages/go/pack/pack.go: Unpack, unpackInto, unpackWord"])
p("C28", "Retry makes a bounded number of calls and returns an honest result",
  "The retry interceptor calls the server at most MaxAttempts times, stops at the first success or non-retryable error, and returns the result of the last call made (or the context error).",
  "every sequence of call outcomes, every policy, every cancellation time",
  "Unbounded outcome sequences.",
  ["rpc/retry/retry.go: UnaryClientInterceptor, isRetryable"])
p("C29", "Hedging returns a success if any attempt succeeds",
  "The hedging interceptor starts at most MaxHedged+1 attempts, returns the first success it receives, and returns an error only when all attempts failed, one failed fatally, or the context ended.",
  "every schedule of starts, completions, timer firings and cancellations",
  "Concurrent interleavings.",
  ["rpc/hedge/hedge.go: UnaryClientInterceptor, isFatal"])
p("C30", "Metadata keys are case-insensitive and contexts are isolated",
  "Get after Set with any capitalisation of the key returns the value; appending metadata to a context never changes the metadata of the parent context.",
  "every key, value and sequence of operations",
  "All strings and histories.",
  ["rpc/metadata/metadata.go"])
p("C31", "Service configuration picks the most specific match",
  "The configuration used for a method is that of the most specific pattern that matches (exact, then package/service/*, then package/*/*, then */*/*); setting one property of a pattern keeps the other.",
  "every configuration, every method",
  "All configurations.",
  ["rpc/serviceconfig/serviceconfig.go: GetMethodConfig, SetTimeout, SetWaitForReady, ParsePattern"])
p("C32", "Resolver targets round-trip",
  "Parsing a target and printing it gives a target that parses to the same value; malformed targets are rejected.",
  "every string",
  "All strings.",
  ["rpc/transport/resolver/parse.go: Parse, String"])
p("C33", "Balancers always pick an offered connection and are fair",
  "Every picker returns one of the candidates (or none when there are none); round robin gives every candidate the same number of picks over any n consecutive picks; weighted round robin gives each candidate exactly its weight over a full cycle; priority picks minimal priority.",
  "every candidate list, every starting counter",
  "All list lengths, weights and counter values.",
  ["rpc/client/pool/balancer.go", "rpc/transport/resolver/picker.go"])
p("C34", "Handler registration never overwrites",
  "Registering a handler under a name already taken fails and leaves the registry unchanged; lookup returns exactly the handler registered for that package, service and call.",
  "every history of registrations and every lookup",
  "Histories and name collisions of any shape.",
  ["rpc/server/registry.go"])
p("C35", "Interceptors run in the order given",
  "A chain of interceptors runs outermost first in the given order and the handler is called with what the innermost passes on.",
  "every list of interceptors",
  "Unbounded chain length.",
  ["rpc/interceptor/chain.go"])
p("C36", "Handler errors reach the client as errors",
  "An error returned by a handler is reported to the client with a code other than 'none' and the code equals the error's category.",
  "every error value",
  "All categories.",
  ["rpc/server/handlers.go: errCodeFromError", "rpc/errors/errors.go"])
p("C37", "Server sessions: no send on or double close of a session channel",
  "For every sequence of incoming messages the server never closes a session's receive channel twice and never delivers a payload after closing it.",
  "every sequence of frames from a client, including hostile ones",
  "Unbounded frame histories.",
  ["rpc/server/conn.go: handleOpen, handleClose, handlePayload, handleCancel, serve"])
p("C38", "Session identifiers are never reused on a connection",
  "Two sessions opened on one connection have different identifiers and none is zero.",
  "every history of opens",
  "Counter wrap-around after 2^32 opens.",
  ["rpc/server/conn.go: handleOpen"])
p("C39", "Graceful shutdown drains",
  "Once a server connection starts a graceful close no new session is accepted, and graceful close returns success only when every running handler has finished.",
  "every interleaving of opens, handler completions and the close",
  "Interleavings.",
  ["rpc/server/conn.go: GracefulClose, handleOpen, runHandler"])
p("C40", "The connection limit holds",
  "The server never serves more connections at once than its configured maximum.",
  "every interleaving of accepts and closes",
  "Interleavings.",
  ["rpc/server/server.go: Serve"])
p("C41", "Replies reach the call that asked",
  "A synchronous call returns a payload only if it carries that call's request identifier on that session; replies are not delivered to other calls.",
  "every interleaving of concurrent calls and replies",
  "Interleavings.",
  ["rpc/client/sync.go", "rpc/client/client.go: handlePayload"])
p("C42", "Packing negotiation keeps both ends in agreement",
  "At any time the receiver decodes a frame in the form (packed or plain) in which the sender wrote it.",
  "every history of opens, acks, payloads on a connection",
  "Histories of both ends.",
  ["rpc/client/client.go: sendMsg, readLoop, handleOpenAck", "rpc/server/conn.go: handleOpen, sendMsg, serve"])
p("C43", "The pool uses only healthy connections and shuts down cleanly",
  "A call is sent only on a connection in the ready state; after Close no call is sent; a connection once ready becomes usable; Close may be called repeatedly.",
  "every interleaving of connects, failures, health checks, calls and closes",
  "Interleavings.",
  ["rpc/client/pool/pool.go", "rpc/client/pool/subconn.go", "rpc/client/pool/health.go"])
p("C44", "Compression is transparent",
  "Decompressing what was compressed with the same algorithm returns the input; an unknown algorithm is an error, never silently passed through.",
  "every payload, every registry of lawful compressors",
  "All payloads.",
  ["rpc/compress/compress.go"])
p("C45", "Credentials never leave over an insecure connection",
  "If any configured credential requires transport security, a call over an insecure connection fails before sending; composed credentials merge with later ones winning.",
  "every list of credentials and connection security level",
  "All lists.",
  ["rpc/credentials/credentials.go", "rpc/client/client.go: applyCredentials"])
p("C46", "Validators guard requests and responses",
  "With a validator registered, a request that fails validation never reaches the handler and a response that fails validation is never returned.",
  "every request, response and validator",
  "All values.",
  ["rpc/validate/validate.go"])
p("C47", "Schema compiler accepts only dense field numbers",
  "A struct is accepted exactly when its field numbers are 0..n-1 without repetition, and the compiled fields are in numeric order.",
  "every list of declared field numbers",
  "All permutations and sizes.",
  ["clawc/internal/idl/idl.go: Struct.fields, Struct.field"])
p("C48", "Enum values are representable and renderable",
  "An accepted enum has distinct names and distinct values that fit its declared width, and rendering it never fails.",
  "every list of enumerators",
  "All value sets.",
  ["clawc/internal/idl/idl.go: Enum.parse, OrderByValues, OrderByNames"])
p("C49", "Replaying recorded mutations reproduces the struct",
  "With recording on, applying the recorded operations to a copy of the starting struct yields the final struct.",
  "every starting struct and mutation history",
  "All histories.",
  [SEG+"struct.go: RecordOp, DrainRecordedOps", "languages/go/patch/apply.go"])
p("C50", "Type registration in pools is lost-update free",
  "Concurrent registrations of segment pools never lose one another and repeated registration keeps the first pool.",
  "every interleaving of registrations",
  "Interleavings of compare-and-swap loops.",
  [SEG+"segment.go: RegisterPool"])
p("C51", "Bit utilities do what they say",
  "Setting a bit range and reading it back returns the value and leaves the other bits; set, clear and get of single bits agree.",
  "every width, position and value",
  "All positions and values.",
  ["clawc/internal/bits/bits.go"])
p("C52", "Health service reports the last status set",
  "Check returns the last status set for a service, 'serving' initially for the overall service, and 'unknown' for services never set.",
  "every history of status changes",
  "All histories.",
  ["rpc/health/service.go"])
p("C53", "Generic number encoding round-trips",
  "Writing a number of any fixed-width type into a buffer and reading it back as the same type returns the number, and only the bytes of its width change.",
  "every number type, value and buffer",
  "All types, values and buffers.",
  ["clawc/internal/binary/binary.go: Put, Get, PutBuffer"])
p("C54", "Payloads reach only their session, in order",
  "The payloads a server handler receives are among the payloads the client sent with that session's identifier, in the order sent; none is duplicated, reordered or taken from another session.",
  "every sequence of client frames and every interleaving of handlers, closes and cancels",
  "Interleavings of the read loop with the handlers cannot be enumerated by tests.",
  ["rpc/server/conn.go: serve, handlePayload, handleClose, handleCancel"])
p("C55", "Server frames of a session are bracketed",
  "For each session the server writes its OpenAck first, then payloads, then at most one Close, and nothing of that session afterwards.",
  "every sequence of client frames and every interleaving of handlers, on connections with fewer than 2^32 sessions",
  "Interleavings of the handlers with the read loop cannot be enumerated by tests.",
  ["rpc/server/conn.go: handleOpen, runHandler, sendPayload, sendClose"])
p("C56", "Every handler learns that its connection ended",
  "When the read loop of a server connection has ended, the receive side of every session whose handler still waits or runs is closed, so no handler waits for ever for a payload.",
  "every sequence of client frames and every interleaving, on connections with fewer than 2^32 sessions",
  "Interleavings of the read loop, Close, Cancel and the ends of handlers.",
  ["rpc/server/conn.go: serve, handleClose, handleCancel, runHandler"])
p("C57", "The limit on concurrent handlers holds",
  "A server configured with a maximum number of concurrent RPCs never runs more handlers than that at once, and the limit does not stop a connection from making progress.",
  "every interleaving of opens and ends of handlers on all connections",
  "Interleavings.",
  ["rpc/server/server.go: WithMaxConcurrentRPCs", "rpc/server/conn.go: newServerConn, handleOpen"])
p("C58", "Shutdown stops the server",
  "After Shutdown is called no connection is accepted; when it returns all connections it found are closed; when it returns nil no handler is running.",
  "every interleaving of connections, handlers and calls of Shutdown",
  "Interleavings.",
  ["rpc/server/server.go: Serve, Shutdown", "rpc/server/conn.go: GracefulClose, Close"])
p("C59", "Cancelling one call leaves the other calls alone",
  "When the context of one call on a synchronous client ends, the other calls in progress on that client are not affected.",
  "every state of a server connection and every call cancelled on it",
  "The effect of a cancel depends on what else is in progress at that moment.",
  ["rpc/client/sync.go: doCall", "rpc/client/client.go: sendCancel", "rpc/server/conn.go: handleCancel"])
p("C60", "A session that ends makes its calls fail",
  "When the server closes a session, or the connection ends, every synchronous call in progress on it returns an error; the program does not panic.",
  "every interleaving of calls and of the read loop, and all payloads",
  "Which case a select takes when several are ready is random.",
  ["rpc/client/sync.go: doCall", "rpc/client/client.go: handleClose, readLoop"])
p("C61", "A slow session does not hold up the others",
  "A handler that does not take its payloads delays only its own session; the frames of the other sessions of the connection are still handled.",
  "every state of a server connection with a full session and every continuation",
  "Tests use handlers that read.",
  ["rpc/server/conn.go: serve, handlePayload"])
p("C62", "No server can panic a client connection",
  "Whatever frames the server sends, in any order, the client connection does not panic: no channel is closed twice and nothing is sent on a closed channel, however the read loop interleaves with opens, readers of streams and calls of Close and GracefulClose.",
  "every sequence of server frames and every interleaving of the read loop with the callers",
  "Interleavings, and servers that do not keep to the protocol.",
  ["rpc/client/client.go: readLoop, handleOpenAck, handleClose, handlePayload, GracefulClose, Close"])
p("C63", "GracefulClose of a client waits for its sessions, and only for them",
  "After GracefulClose is called no session is opened; when it returns nil every session was closed by the server; when no session is open it returns.",
  "every sequence of server frames and every interleaving",
  "Interleavings of opens, timeouts, GoAway and GracefulClose.",
  ["rpc/client/client.go: GracefulClose, checkDrained, handleGoAway, openSession"])
p("C64", "A stream that ends without error is complete",
  "When the iterator over a stream ends and Err reports no error, the user has seen all the messages the server sent on the stream, in order; when the server closes the stream with an error, Err reports it.",
  "every sequence of server frames and every interleaving of the read loop with the reader",
  "The end of the stream, the end of the connection and the reader interleave in many ways.",
  ["rpc/client/client.go: recvIter, handlePayload, handleClose, readLoop"])
p("C65", "The pool keeps its connections working",
  "A connection that is made stays usable until it fails or the pool is closed: frames the server sends are handled and health checks are answered. A connection that fails is replaced, so that calls reach the address again.",
  "every interleaving of connects, failures, frames, health checks, calls and closes",
  "The order of the return of the connect task, the read loop and the failure matters; tests that connect by hand do not go through the connect task.",
  ["rpc/client/pool/subconn.go: connectWithRetry, tryConnect, handleConnectionFailure", "rpc/client/pool/pool.go: isConnectionError", "rpc/client/client.go: readLoop, waitForReady"])
p("C66", "Messages on a connection keep their boundaries",
  "Messages written one after another on a connection, plain or packed, are read back one by one with the same contents, however the transport splits the bytes and whatever earlier messages left in pooled buffers; a stream that ends between messages is reported as the end, one that ends inside a message as an error other than the regular end.",
  "every sequence of messages, every split of the bytes into reads, every place where the stream may end",
  "A transport may split the bytes anywhere; tests use pipes that do not.",
  ["clawc/languages/go/segment/struct.go: UnmarshalReader", "rpc/client/client.go: readLoop, readPackedMsg, sendMsg", "rpc/server/conn.go: serve, readPackedMsg, sendMsg"])
p("C67", "What a peer can make a reader allocate is bounded",
  "The memory a peer can make the receiver of a connection ask for is bounded by the maximum message size the receiver is configured with, or at least by what the peer has sent.",
  "every byte stream a peer may send, every configured maximum",
  "All byte streams; the largest ones do not fit in a test.",
  ["clawc/languages/go/segment/struct.go: UnmarshalReader", "rpc/client/client.go: readPackedMsg, WithMaxRecvMsgSize", "rpc/server/conn.go: readPackedMsg, handlePayload", "rpc/server/server.go: WithMaxRecvMsgSize"])
p("C68", "A received message stays what it was",
  "A message handed to a handler or a caller keeps the contents with which it was sent for as long as it is held, whatever other messages are received and sent by the process meanwhile; what a sender writes to its connection is the message it was given.",
  "every interleaving of readers and senders of all connections of the process",
  "Which pooled buffer is reused when depends on the scheduler and the garbage collector.",
  ["rpc/server/conn.go: readPackedMsg, handlePayload, sendMsg", "rpc/client/client.go: readPackedMsg, sendMsg", "languages/go/pack/pack.go: bufferPool, Pack, Unpack, Release"])
p("C69", "A field has the type its declaration writes",
  "In a schema that compiles, every field has exactly the type its declaration writes, whether the structs and enums it names are declared before it or after; a type that names nothing, or is no type, makes compilation fail.",
  "every schema file: any number of structs and enums in any order, any types, maps of any depth",
  "All declaration orders and type expressions.",
  ["clawc/internal/idl/idl.go: Struct.field, parseMapType, Struct.Render, File.FindNext"])
p("C70", "Names in a schema are unique",
  "In a schema that compiles no two structs or enums have the same name, nor two enumerators of an enum, nor two fields of a struct.",
  "every schema file",
  "All files.",
  ["clawc/internal/idl/idl.go: File.FindNext, Enum.parse, Struct.fields"])
p("C71", "Ingest is the inverse of Walk",
  "Ingesting the tokens that Walk gives for a struct into a new struct of the same type gives an equal struct: the same scalars, enum numbers (declared or not), strings, bytes, nil and non-nil structs, lists, maps and Any values at every depth. Two different structs have different token streams.",
  "every struct declaration with distinct field names, recursive ones included, whose map values are scalars, strings, structs, Any or []Any; every value of any depth and size; with and without IgnoreUnknownFields; whatever follows in the stream",
  "All declarations and all values, with unbounded nesting.",
  ["clawc/internal/render/golang/templates/clawiter.tmpl: Walk", "clawc/internal/render/golang/templates/clawingest.tmpl: Ingest, XXXIngestFrom", "clawc/languages/go/clawiter/token.go"])
p("C72", "A token reader may ignore fields it does not know",
  "With IgnoreUnknownFields, ingesting the tokens of a struct written with other declarations gives the reader's own fields with the values of the fields of the same name, at every depth, and skips the others whatever their type and value; without it, an unknown field is an error.",
  "every pair of declarations that agree on the types of the fields they share, every value",
  "All pairs of schemas and all nested unknown values.",
  ["clawc/languages/go/clawiter/ingest.go: SkipValue, skipStruct, skipList, skipListStructs, skipMap", "clawc/internal/render/golang/templates/clawingest.tmpl: XXXIngestFrom"])
p("C73", "Ingest replaces what a struct held",
  "After ingesting the tokens of a struct, the receiving struct equals the struct the tokens came from, whatever it held before.",
  "every struct declaration, every old and new contents",
  "All pairs of contents.",
  ["clawc/internal/render/golang/templates/clawingest.tmpl: Ingest, XXXIngestFrom"])
p("C74", "Walk stops when its callback says so",
  "Walk calls its callback with the tokens of the struct in order, nested structs included, until the callback returns false; after that it does not call it again.",
  "every struct value, every callback, whatever it bases its answers on",
  "All callbacks and all places to stop.",
  ["clawc/internal/render/golang/templates/clawiter.tmpl: Walk"])
p("C75", "Strings survive JSON",
  "Every string that is written as JSON is a valid JSON string, in UTF-8 and without control characters; a JSON reader reads it back as the same string, where every byte that belongs to no character has been replaced by U+FFFD. Two different UTF-8 strings are written differently.",
  "every string of bytes, valid UTF-8 or not, whatever follows it in the text",
  "All strings, with every mixture of escapes, characters of one to four bytes and broken sequences.",
  ["languages/go/clawjson/clawjson.go: appendEscapedString"])
p("C76", "Marshal writes JSON",
  "What Marshal writes for a struct is one well formed JSON object with a member for every field, in order; what an Array writes is one well formed JSON array of such objects.",
  "every struct declaration with UTF-8 names, recursive ones included, and every value at every depth; any number of structs in an Array",
  "All declarations and all nested values.",
  ["languages/go/clawjson/clawjson.go: Marshal, writeJSON, writeValue, Array.Write, Array.Close"])
p("C77", "Unmarshal is the inverse of Marshal",
  "Unmarshalling into a new struct the JSON that Marshal wrote for a struct gives an equal struct.",
  "every struct declaration with distinct UTF-8 names, recursive ones included, and every value at every depth; with and without numbers for enums; with and without ignoring unknown fields",
  "All declarations and all nested values, all floats, all strings.",
  ["languages/go/clawjson/clawjson.go: Marshal, writeJSON, writeValue, Unmarshal, jsonToTokens", "clawc/internal/render/golang/templates/clawingest.tmpl: Ingest, XXXIngestFrom"])
p("C78", "Unmarshal accepts only JSON of the right types",
  "Unmarshal returns an error if its input is not one well formed JSON object, or if a member has not the JSON type of the field it names or a number does not fit the field.",
  "every input text, every struct declaration",
  "All texts.",
  ["languages/go/clawjson/clawjson.go: Unmarshal, jsonToTokens", "clawc/internal/render/golang/templates/clawingest.tmpl: XXXIngestFrom"])
p("C79", "Maps keep their keys in JSON",
  "A map is written as a JSON object with one member for every entry, whose name tells the key; no two members have the same name.",
  "every type of keys, every map",
  "All maps.",
  ["languages/go/clawjson/clawjson.go: writeJSON", "clawc/languages/go/clawiter/token.go: KeyString"])
p("C80", "Bytes and Any values can be read from JSON",
  "A bytes field, and every item of a list of bytes, is written as base64 that decodes to the bytes. An Any whose type is not registered is written with its type hash in hexadecimal and its bytes in base64; one whose type is registered with its hash, the name of its type and its fields.",
  "all bytes, all type hashes, every depth of Any values",
  "All byte strings, of every length modulo 3.",
  ["languages/go/clawjson/clawjson.go: writeValue, appendHex"])
p("C81", "Strings come back from text",
  "A string field that is valid UTF-8 comes back unchanged when the text Marshal wrote for its struct is unmarshalled, whatever quotes, backslashes, white space and control characters are in it.",
  "all UTF-8 strings of any length; every indentation of blanks and tabs",
  "All strings: where quotes, commas and white space stand decides how the line is cut into words.",
  ["languages/go/clawtext/writer.go: appendEscapedString, writeValue", "languages/go/clawtext/parser.go: parseField, parseQuotedString, unquoteString"])
p("C82", "Unmarshal is the inverse of Marshal for text",
  "Unmarshalling into a new struct the text that Marshal wrote for a struct gives an equal struct.",
  "every struct declaration with distinct names, recursive ones included, and every value at every depth; all options of Marshal; with and without ignoring unknown fields",
  "All declarations and all nested values, all floats, all strings.",
  ["languages/go/clawtext/writer.go: writeClawtext, writeValue", "languages/go/clawtext/parser.go: textToTokens, parseField, parseArray, parseMapEntries", "languages/go/clawtext/clawtext.go: Marshal, Unmarshal"])
p("C83", "Unmarshal accepts only text of the right form and types",
  "Unmarshal of text returns an error if there is something after the end of the struct or after a value, if a value has not the type of the field it is for, or if a number does not fit the field.",
  "every text, every struct declaration",
  "All texts.",
  ["languages/go/clawtext/parser.go: parseFields, parseField, emitNumber, parseRawString", "languages/go/clawtext/clawtext.go: Unmarshal"])
p("C84", "Comments and blank lines do not change a text",
  "A blank line, a comment that starts with // on a line of its own and a comment between /* and */ over any number of lines may be put between any two lines of a text, outside of strings and other comments, without a change of what Unmarshal gives; of a line with a comment, only the comment is ignored.",
  "every text, every position between lines outside of strings and comments, every comment",
  "All texts, positions and comments.",
  ["languages/go/clawtext/parser.go: skipCommentsAndWhitespace"])
p("C85", "Texts in the documented form are read",
  "A list in brackets with its items separated by commas, a list of structs in braces, a map after @map with the colon at the key, a string in backquotes over several lines, true, false and null followed by a comma, a hexadecimal number, an Any with its type in parentheses and several fields on one line, each written as docs/clawtext/clawtext.md shows, are read by Unmarshal as the values they denote.",
  "every list, map, string, number and field, of any size, over any lines",
  "All values and all ways to lay them out.",
  ["languages/go/clawtext/parser.go: parseField, parseArrayElements, parseMapEntries, parseRawString", "docs/clawtext/clawtext.md"])
p("C86", "claw.mod files are read as documented",
  "A claw.mod file made of a module line, blank lines, comments after //, a require block, a replace block and a list of ACLs or the public setting, as docs/modules/modules.md describes them, is read as the module path, the required versions, the replacements and the ACLs it lists.",
  "every file of these parts, with any number of entries, any paths, any comments and any indentation",
  "All files and all orders of the parts.",
  ["clawc/internal/imports/imports.go: Module.Start, Module.parse", "clawc/internal/imports/imports.go: Require.parse, Replace.parse, ACLs.parse", "docs/modules/modules.md"])
p("C87", "clawc init leaves files that clawc can read",
  "The claw.work and claw.mod files that clawc init writes are read back as the repository, the vendor directory and the module path, and the module is in the repository; a module counts as in a repository exactly if its path is that of the repository or continues it after a slash.",
  "every repository path, vendor directory and directory in the repository that can be written in such a file",
  "All paths.",
  ["clawc/clawc.go: init", "clawc/internal/work/work.go: Parse, ValidateModuleInRepo", "clawc/internal/imports/imports.go: Module.Validate"])
p("C88", "A local.replace file replaces packages",
  "A local.replace file in the form of docs/replace/replace.md is read as the replacements it lists, by clawc when it collects dependencies and when it reads imports.",
  "every list of replacements, with any paths, comments and indentation",
  "All files.",
  ["clawc/internal/imports/imports.go: LocalReplace.Start, LocalReplace.Validate, Config.Read", "clawc/internal/vendor/vendor.go: parseLocalReplace", "docs/replace/replace.md"])
p("C89", "The claw.mod of a vendored package is that of the package",
  "The claw.mod file written into the vendor directory for a package is read back as the module it was written for.",
  "every module that was read from a claw.mod file",
  "All modules.",
  ["clawc/internal/vendor/vendor.go: writeModuleFile, serializeModule", "clawc/internal/imports/imports.go: Module.Start"])
p("C90", "All packages that a file needs are collected",
  "clawc collects exactly the packages that a file imports, directly or through others, each once and with all its imports; it fails if one of them cannot be had or if packages import each other in a cycle, and it always ends with a result or an error.",
  "every set of files and imports, every module file and replacements, `clawc` and `clawc get`, in and out of a git repository",
  "The import graphs, which are unbounded in size and shape.",
  ["clawc/internal/vendor/vendor.go: processClawFile, processSingleDependency, applyReplaceDirectives, resolveVersion", "docs/schema_language/schema_language.md"])
p("C91", "Packages are compiled after those that they import",
  "The order of compilation has every package once, and each package after all packages that it imports. There is an order exactly if no package imports itself, directly or through others.",
  "every dependency graph, the packages being visited in any order",
  "The graphs and the orders of Go's map iteration.",
  ["clawc/internal/vendor/vendor.go: GetCompilationOrder"])
p("C92", "Only those that a module lets in can import it",
  "A file is compiled only if every package that it needs has a claw.mod file that is public or that has a rule for the module: its path, or the path of a module above it followed by /*.",
  "every set of packages, module files and rules",
  "The combinations of packages, locations and rules.",
  ["clawc/internal/vendor/vendor.go: checkACLPermission, validateACLs, getModuleFile", "docs/modules/modules.md", "docs/compilation/compilation.md"])
p("C93", "Imports are read to the end and cycles are refused",
  "When a file is compiled, the packages that it imports, directly or through others, are all read, and no others. The compilation fails exactly if one of them cannot be read or if packages import each other in a cycle, and reading always ends.",
  "every set of files and imports, for the reader of the repository and the reader of the vendor directory",
  "The import graphs, which are unbounded in size and shape.",
  ["clawc/internal/imports/imports.go: Config.Read, read, readLocal, readRemote, VendoredConfig.Read, readVendored", "docs/schema_language/schema_language.md"])
p("C94", "Packages of the repository are told from those of others",
  "A package is taken for one of the repository exactly if its path is that of the repository or below it; then it is looked for in its directory of the repository and its import path in Go is the same. All other packages are imported from the vendor directory, no two from the same place.",
  "every repository and package path",
  "The pairs of paths.",
  ["clawc/internal/vcs/vcs.go: InRepo, Abs", "clawc/internal/imports/imports.go: TransformImportPath, read, readVendored", "clawc/clawc.go: isLocalDependency, compileLocalDependency"])
p("C95", "clawc get fetches the version it is asked for",
  "`clawc get package@version` splits its argument at the sign; a version that is the name of a tag of the repository is the commit of that tag, any other is taken for the hash of a commit, and no version makes clawc panic.",
  "every package, version and set of tags",
  "The versions and tags.",
  ["clawc/clawc.go: parsePackageSpec", "clawc/internal/imports/git/git.go: versionCheckout, semanticCheckout, Version.FromString"])
p("C96", "Reflection reads and writes single values like the generated methods",
  "For a bool, number, enum, string or bytes field, `Set` through reflection does what the generated setter does with the same value, `Get` returns the value that the generated getter returns, the zero value of the type if the field is not set, and `Has` reports whether the field is populated.",
  "every struct that a program can make, every such field and value, every enum group",
  "The structs, field types and values; enums of other packages and numbers without names are rarely tried.",
  ["languages/go/reflect/internal/value/impl.go: StructImpl.Get, Set, Has, GetValue, SetField", "languages/go/reflect/internal/value/value.go: Any, Enum", "languages/go/reflect/internal/interfaces/interfaces.go: Struct"])
p("C97", "A struct is copied field by field through reflection",
  "A program that makes a new struct with `New` and sets in it every populated field that `Range` hands on gets a struct that marshals to the same bytes, and the source is unchanged.",
  "every struct that a program can make, with fields of any type",
  "The combinations of populated fields and their types.",
  ["languages/go/reflect/internal/value/impl.go: StructImpl.New, Range, Get, Set", "languages/go/reflect/internal/interfaces/interfaces.go: Struct.Range"])
p("C98", "Reflection shows the items of a list",
  "A list that is read through reflection has the items that the generated accessor shows, whether or not they are marshaled yet, and reading it changes neither what the accessor shows nor what is marshaled later.",
  "every list type and list, every struct that has it",
  "The types, lengths and contents of lists and what is done after they are read.",
  ["languages/go/reflect/internal/value/impl.go: GetValue, getListBools, getListNumbers, getListBytes, getListStrings, getListStructs", "clawc/languages/go/segment/lists.go: NewStrings, NewBytes, NewNumbers"])
p("C99", "A field that is cleared through reflection is gone",
  "After `Clear` through reflection `Has` is false for the field, and the struct marshals as one in which the generated method has cleared the field.",
  "every struct that a program can make, fields of any type",
  "The structs and field types.",
  ["languages/go/reflect/internal/value/impl.go: StructImpl.Clear, ClearField", "languages/go/reflect/internal/interfaces/interfaces.go: Struct.Clear"])
p("C100", "What NewField returns can be set",
  "`NewField` returns for every field a value that `Set` accepts for the field: the default value of a scalar, an empty list or an empty struct of the type of the field.",
  "every field of every struct type",
  "The field types, and structs that were reached through other structs.",
  ["languages/go/reflect/internal/value/impl.go: StructImpl.NewField", "languages/go/reflect/internal/interfaces/interfaces.go: Struct.NewField"])
p("C101", "Every reflected value can be printed",
  "`String` of a value returns a text: the string itself, the name of an enum, the fields of a struct in braces; it never panics.",
  "every value that `Get` returns",
  "The values, in particular those with fields that are not set.",
  ["languages/go/reflect/internal/value/value.go: Value.String", "languages/go/reflect/internal/interfaces/interfaces.go: Value.String"])
p("C102", "Only those allowed may ask the reflection service",
  "With `AllowedCIDRs` set, a call is answered only if the address of the peer is in one of the ranges; with a `TokenValidator` set, only if it accepts the first value of the configured header, whatever its case; with both set, only if both hold, and then it is answered. A configuration is accepted exactly when every range can be read.",
  "every configuration, every peer address, IPv4 and IPv6, every transport, every metadata",
  "The ranges, addresses and headers; a test tries a few, and none a caller who writes the forwarding header.",
  ["rpc/reflection/config.go: Config.Validate", "rpc/reflection/config.go: Config.IsIPAllowed", "rpc/reflection/service.go: Server.checkAccess", "rpc/reflection/service.go: extractIP", "rpc/transport/http/server.go: Handler.remoteAddr"])
p("C103", "The reflection service lists exactly what is registered, in order",
  "`ListServices` gives every package, service and method registered and no other, each once, with the type of the handler a call would reach, in ascending order of names and whatever the order of the registry's map; `GetServiceInfo` and `GetMethodInfo` find a service or a method exactly when it is registered, and agree with the listing.",
  "every sequence of registrations, every name asked for",
  "The sets of handlers and the orders in which a Go map is visited.",
  ["rpc/reflection/service.go: Server.ListServices", "rpc/reflection/service.go: Server.GetServiceInfo", "rpc/reflection/service.go: Server.GetMethodInfo", "rpc/server/registry.go: Registry.Handlers"])
p("C104", "A stream transport delivers messages whole and in order",
  "Whatever the interleaving of goroutines that write to one TCP or Unix transport, the connection gets the messages of the `Write` calls that succeeded, each whole and once, in one order that agrees with the order of every goroutine's own calls; at most the beginning of one more message follows, that of a `Write` still running or failed.",
  "every interleaving of any number of goroutines, every message, every failure of the network",
  "Interleavings of any number of writers with failures.",
  ["rpc/transport/tcp/client.go: ClientTransport.Write", "rpc/transport/unix/client.go: ClientTransport.Write", "rpc/transport/tcp/server.go: ServerTransport.Write"])
p("C105", "Every call on a stream transport returns",
  "Once the network has answered, every `Read`, `Write`, `Close` and `Reconnect` returns, and `Close` makes a call that waits for the network return.",
  "every interleaving of any number of goroutines, every failure of the network",
  "A deadlock needs one interleaving out of very many.",
  ["rpc/transport/tcp/client.go: ClientTransport.Write", "rpc/transport/tcp/client.go: ClientTransport.cleanupLocked", "rpc/transport/tcp/client.go: ClientTransport.Close", "rpc/transport/tcp/server.go: ServerTransport.Close"])
p("C106", "Closing a stream transport closes every connection it made",
  "After `Close` has returned, every connection the transport has made is closed, and every later `Read` and `Write` fails.",
  "every interleaving of any number of goroutines that read, write, reconnect and close",
  "Interleavings of reconnecting and closing.",
  ["rpc/transport/tcp/client.go: ClientTransport.connect", "rpc/transport/tcp/client.go: ClientTransport.Reconnect", "rpc/transport/tcp/client.go: ClientTransport.Close"])
p("C107", "No connection that comes in is lost",
  "A connection that comes in to a TCP or Unix listener is returned by exactly one call of `Accept`, or waits, or is closed; a loop that accepts gets them in the order in which they came; after `Close` no call gets a new one and none is left waiting; `Server.Close` closes all connections.",
  "every interleaving of connections coming in, calls of `Accept`, contexts being cancelled and closing",
  "Interleavings of cancellation with the goroutine that accepts.",
  ["rpc/transport/tcp/server.go: Listener.Accept", "rpc/transport/tcp/server.go: Listener.Close", "rpc/transport/tcp/server.go: Server.Serve", "rpc/transport/tcp/server.go: Server.Close", "rpc/transport/unix/server.go: Listener.Accept"])
p("C108", "A Unix listener owns its socket file",
  "`Listen` removes or replaces no file that is not a socket, leaves every other path alone, and makes at the path a socket that at no moment has more than the configured permissions; while a listener is open its path leads to its socket; `Close` removes that socket and nothing else.",
  "every state of the files, every sequence of listeners made and closed, every mode and process mask",
  "States of the file system between the system calls, and orders in which listeners are made and closed.",
  ["rpc/transport/unix/server.go: Listen", "rpc/transport/unix/server.go: Listener.Close", "rpc/transport/unix/options.go: defaultConfig"])
p("C109", "The telemetry interceptors do not change what a call gives",
  "With the OpenTelemetry interceptors installed, a call runs the handler once with the same request, gives its response, fails exactly when it fails, reaches the client with the same error code, and with metrics on is counted once, as a failure exactly when it failed.",
  "every configuration, every handler and what it does, every error, every chain the interceptor is part of",
  "Errors are trees of wrapped errors, and chains are arbitrary.",
  ["rpc/interceptor/otel/otel.go: Interceptor.UnaryServerInterceptor", "rpc/interceptor/otel/otel.go: Interceptor.StreamServerInterceptor", "rpc/interceptor/otel/otel.go: Interceptor.UnaryClientInterceptor", "rpc/server/handlers.go: errCodeFromError"])
p("C110", "A call a trace rule names is traced",
  "If a range, a method or a metadata rule of `TraceRules` applies to a call, it is traced whatever the sampler says; a rule for a method applies to its full name or to whole parts at its end; a configuration is refused exactly when a range cannot be read.",
  "every set of rules, every address, method and metadata, every decision of the sampler",
  "The rules and the calls; a test that asks only `ShouldTrace` does not see whether anyone else asks it.",
  ["rpc/interceptor/otel/config.go: TraceRules", "rpc/interceptor/otel/config.go: TraceRules.ShouldTrace", "rpc/interceptor/otel/otel.go: New", "rpc/interceptor/otel/otel.go: Interceptor.UnaryServerInterceptor"])
p("C111", "Closing the HTTP client transport ends its connections",
  "Once `Close` has marked the HTTP client transport closed, every request it ever sent is given up, every pipe is closed, so no call is left waiting on one, and `Connected` is false, for good; later `Read`, `Write` and `Reconnect` calls fail with `ErrClosed` and a later `Close` returns no error; no `Reconnect` succeeds after `Close` has returned, and no interleaving with `Close` panics.",
  "every interleaving of any number of goroutines that read, write, reconnect, close and ask",
  "Interleavings of connecting and closing.",
  ["rpc/transport/http/client.go: ClientTransport.Close", "rpc/transport/http/client.go: ClientTransport.connect", "rpc/transport/http/client.go: ClientTransport.cleanupLocked"])
p("C112", "An HTTP client transport is one connection carrying whole messages",
  "Whatever the interleaving of goroutines, the server gets on each connection of an HTTP client transport the messages of the `Write` calls that succeeded on it, each whole and in order, and at most the beginning of one more; a transport that says it is connected has an accepted request that is kept up, and `Write` writes to it; `Reconnect` returns no error only with a connection; no call panics.",
  "every interleaving of any number of goroutines that read, write, reconnect and close, every answer of the server",
  "Interleavings of calls that reconnect.",
  ["rpc/transport/http/client.go: ClientTransport.connect", "rpc/transport/http/client.go: ClientTransport.Write", "rpc/transport/http/client.go: ClientTransport.Reconnect"])
p("C113", "An HTTP connection lasts until it is closed and is reported truthfully",
  "The connection made by `Dial` or `Reconnect` is kept up by the client until `Close` or `Reconnect`; `Connected` is false after it has failed; `Err` is about the present connection; `Dial` gives up after the time set with `WithDialTimeout`.",
  "every interleaving of any number of goroutines, contexts ending and failures of the network, every time limit",
  "Orders of contexts ending, failures and calls.",
  ["rpc/transport/http/client.go: Dial", "rpc/transport/http/client.go: ClientTransport.connect", "rpc/transport/http/client.go: ClientTransport.Connected", "rpc/transport/http/client.go: ClientTransport.Err", "rpc/transport/http/options.go: WithDialTimeout"])
p("C114", "Which HTTP requests become RPC connections",
  "The HTTP handler serves exactly the POST requests without a content type or with that of the protocol, on a response that can be flushed; the others get 405, 415 or 500, in this order; the request of the client is served whatever other headers its caller configures; an endpoint of another protocol version is refused by either side.",
  "every request, every configured header, every version",
  "Requests and headers are arbitrary.",
  ["rpc/transport/http/server.go: Handler.ServeHTTP", "rpc/transport/http/client.go: ClientTransport.connect"])
p("C115", "An HTTP server transport and its handler",
  "Once the transport of a served request is closed, and so once `ServeHTTP` has returned, nothing more is written to the response, the request body has been closed once, every later `Close` gives the answer of the first and every later `Read` and `Write` fails; until a write fails the response is the messages of the successful `Write` calls, whole, in order and flushed; `Close` ends every call in progress and `ServeHTTP` returns once its server is done.",
  "every interleaving of any number of goroutines, every failure of the network",
  "Interleavings of writing and closing.",
  ["rpc/transport/http/conn.go: serverTransport.Write", "rpc/transport/http/conn.go: serverTransport.Close", "rpc/transport/http/server.go: Handler.ServeHTTP"])
p("C116", "What the DNS resolver makes of an endpoint",
  "The resolver of the scheme dns gives for an endpoint that names a host and a port one address per IP of the answer of the name server, in its order and with that port, or the IP itself if the host is one; a name or an IP alone, an IPv6 address in brackets alone and an empty port get port 443; each address splits back into that IP and port; only the name server of the authority is asked; SRV records are used where there are any.",
  "every endpoint, every answer of the name server",
  "Endpoints and answers are arbitrary, and IPv6 addresses contain the separator.",
  ["rpc/transport/resolver/dns/dns.go: dnsResolver.Resolve", "rpc/transport/resolver/dns/dns.go: builder.Build"])
p("C117", "A resolving dialer connects to what the name stands for",
  "`Dial` of a resolving dialer connects only to an address its resolver gave; a target without a scheme is dialled as it stands, and of a `passthrough` target the endpoint; `Dial` succeeds whenever one of the addresses takes connections.",
  "every target, every picker, every answer of the resolver, every set of addresses that take connections, every number of calls before",
  "Sets of addresses of which some are down, after any number of calls.",
  ["rpc/transport/transport.go: NewResolvingDialer", "rpc/transport/transport.go: ResolvingDialer.Dial"])
p("C118", "A health check over the wire gives the status that was set last",
  "A request that a client encodes for a service, answered by `Check` and decoded by the client, gives what `ServingStatus` gives for that service: the status set last; without one, `Serving` for the empty name and `ServiceUnknown` for any other.",
  "every history of statuses set, every service with a name of fewer than 2^32-32 bytes",
  "Histories and names are arbitrary.",
  ["rpc/health/service.go: Server.Check", "rpc/health/service.go: Server.SetServingStatus", "rpc/health/service.go: Server.ServingStatus"])
p("C119", "What the handler of a stream receives",
  "The `Recv` iterator of a server stream gives the messages the client sent, from the first on, in order, each once and none after the end of the stream; it ends only at that end, when the session is closed and everything that came is given, or when its context has ended and everything that came before is given, or when the loop over it stops, after which it gives nothing more; it does not wait once either has happened; `Err` tells a stream that ended from one that was cut.",
  "every sequence of payloads, every interleaving of their arrival, of closing, cancelling and reading, every callback",
  "Interleavings of arrival, cancelling and reading.",
  ["rpc/server/handlers.go: BiDirStream.Recv", "rpc/server/handlers.go: RecvStream.Recv", "rpc/server/handlers.go: BiDirStream.Err", "rpc/server/handlers.go: RecvStream.Err"])
p("C120", "An interceptor stands between a stream and its handler",
  "With stream interceptors installed the handler runs with the context and the stream that the last of them hands on, which may be a stream of its own; what the first of them returns is what the client is told; a handler that is not called does not run; `Send` of the stream an interceptor gets sends the message or fails.",
  "every chain of interceptors, every handler of the three kinds",
  "Interceptors are arbitrary functions, and chains of any length.",
  ["rpc/server/conn.go: ServerConn.runBiDirHandler", "rpc/server/conn.go: ServerConn.runSendHandler", "rpc/server/conn.go: ServerConn.runRecvHandler", "rpc/server/handlers.go: recvStreamAdapter.Send"])
p("C121", "Trailers reach the client",
  "The trailer of a stream is the union of the metadata given to `SetTrailer`, where a later value of a key replaces an earlier one, as they were when they were given; the Close message carries exactly that, and the client can read it.",
  "every sequence of calls and metadata",
  "Sequences of maps that share keys and buffers.",
  ["rpc/server/handlers.go: BiDirStream.SetTrailer", "rpc/server/handlers.go: BiDirStream.Trailer", "rpc/server/conn.go: ServerConn.sendClose", "rpc/client/client.go: Conn.handleClose"])
p("C122", "What is sent on a stream of the client",
  "`Send` on a `BiDirClient` or `SendClient` that returns without an error has sent its message exactly once, one that fails has sent nothing; messages are sent in the order of calls that do not overlap; `Send` called after `CloseSend` or `Close` sends nothing and fails; the end of the stream and Close are each sent at most once; a handler that reads to the end receives all messages sent before `CloseSend`, `Close` or `Cancel`, in that order, and never anything that was not sent; a message whose `Send` returned without an error is received.",
  "every number of goroutines calling `Send`, `CloseSend`, `Close` and `Cancel`, every interleaving of them with lost connections, ended contexts, the Close of the server and the handler",
  "Interleavings of any number of goroutines on both ends.",
  ["rpc/client/bidir.go: BiDirClient.Send", "rpc/client/bidir.go: BiDirClient.CloseSend", "rpc/client/bidir.go: BiDirClient.Close", "rpc/client/bidir.go: BiDirClient.Cancel", "rpc/client/send.go: SendClient.Send", "rpc/client/send.go: SendClient.Close", "rpc/client/client.go: Conn.sendPayload"])
p("C123", "The Go package generated for a schema compiles, as far as its names go",
  "For every schema the compiler accepts, the Go package it writes declares no name twice, declares methods only for types it declares, refers in the initialisers of its variables only to variables it declares, and has no initialisation cycle.",
  "every accepted schema: any number of structs, enums and fields, any names, any nesting of struct types",
  "Names of any length and schemas of any size; each pair of names can clash in its own way.",
  ["clawc/internal/idl/struct.tmpl", "clawc/internal/render/golang/templates/mappings.tmpl", "clawc/internal/render/golang/templates/reflect.tmpl", "clawc/internal/render/golang/templates/enums.tmpl", "clawc/internal/render/golang/golang.go: Renderer.Render"])
p("C124", "Conversion to and from Raw structs loses nothing",
  "For every struct of a schema, the plain Go struct that ToRaw gives holds the value of every field, and NewFooFromRaw of it makes a struct that marshals to the same bytes. For every Raw struct, NewFooFromRaw stores the value of every field, and ToRaw of the result gives the Raw struct back. The order in which the entries of a Go map are visited makes no difference.",
  "every schema, every nesting of structs and lists of structs, every value and every nil in every field, every program of setter calls that built the struct, every order of the entries of a map",
  "Schemas and values nest without bound; every combination of nil, empty and zero behaves in its own way; the order of a Go map is random.",
  ["clawc/internal/idl/struct.tmpl: NewFooFromRaw, ToRaw", "clawc/internal/idl/idl.go: RawGoType"])
p("C125", "An options line means what it says",
  "The schema compiler accepts an options line exactly if it is a bracketed list of options separated by commas, each a name of letters and numbers with quoted arguments in parentheses, with spaces between them as one likes and a comment at the end; the options it takes from the line are those the line says. A file with an options line is valid exactly if the line says the one option IsSet().",
  "every line, every number of options and arguments, every name and text, every layout, every Unicode table",
  "Lines of any length; the parser remembers the last rune and the last that is no space, so what it does depends on the whole prefix.",
  ["clawc/internal/idl/options.go: Options.parse, parseOptions, parseArgs, valIsSet", "clawc/internal/idl/idl.go: ParseOptions, Validate"])
p("C126", "The lines at the head of a schema file come once and in place",
  "A schema file is accepted only if it has at most one version line, one options line and one import block, options and imports stand before all structs and enums, no option is given twice, the version is 0 and all options are known; and such a file is not rejected for these lines.",
  "every sequence of lines and blocks of a file",
  "Sequences of any length in any order.",
  ["clawc/internal/idl/idl.go: FindNext, ParseVersion, ParseOptions, Validate"])
p("C127", "Struct types are told apart and found, and generated packages can be used together",
  "The hash that names the type of an `Any` is taken of something that is different for different struct types; in a program, the type of that hash is found exactly if a package of the program has it, whatever the order of initialisation; a program starts with any set of generated packages.",
  "every set of generated packages of any size, every order of initialisation, every path and name",
  "Sets of packages of any size and order; two copies of a package meet only in a program of several repositories.",
  ["clawc/internal/idl/idl.go: Struct.TypeHash", "languages/go/reflect/runtime/runtime.go: RegisterPackage", "languages/go/reflect/runtime/runtime.go: RegisterTypeHash", "languages/go/reflect/runtime/runtime.go: LookupTypeHash", "clawc/internal/render/golang/templates/reflect.tmpl: init", "clawc/internal/imports/imports.go: Config.TransformImportPath"])
p("C128", "The compiler writes what it generates and reports failures",
  "When the compiler writes the generated files it returns an error exactly if a file could not be written or the directory of a package is not known; it ends; it touches no other files; if there is no error every generated package has its files beside its schema or in the vendor directory, each with what was generated for it, in files that are part of the Go package.",
  "every number of packages and every interleaving of their goroutines, every order of the additional files, every failure of writing",
  "One goroutine per package and an arbitrary order of the files of a map.",
  ["clawc/internal/writer/golang/golang.go: Writer.WriteFiles", "clawc/internal/writer/golang/golang.go: goErrors", "clawc/internal/writer/writer.go: Writer.Write", "clawc/internal/render/golang/golang.go: Renderer.RenderAdditionalFiles", "clawc/internal/imports/imports.go: Config.ShouldWriteFile", "clawc/internal/imports/imports.go: VendoredConfig.Abs"])
p("C129", "The Go files generated for a schema import what they name",
  "The Go files generated for a schema bind each package they name to the package that is meant, use all they import and bind no name twice or over one they need: whatever the package is called, whatever valid package names and renames are imported, and whatever enums, structs and lists of either are taken from them.",
  "every set of imports with different names, every list of fields of any of the four kinds with types of other packages",
  "Names of packages are an unbounded input; that a name meets one of the generated text is found only by compiling the output for that name.",
  ["clawc/internal/render/golang/templates/claw.tmpl", "clawc/internal/render/golang/templates/clawiter.tmpl", "clawc/internal/render/golang/templates/clawingest.tmpl", "clawc/internal/idl/struct.tmpl", "clawc/internal/idl/idl.go: File.PkgImports", "clawc/internal/idl/idl.go: File.ExternalEnumImports", "clawc/internal/idl/idl.go: File.ExternalFieldImports", "clawc/internal/idl/idl.go: ValidPackage"])
p("C130", "The import block of a schema is read as written",
  "An import block with any number of imports, renames, blank lines, comments behind imports and lines with comments gives exactly the imports it lists, each under its rename or the last element of its path, and leaves the rest of the file. It is refused if it imports nothing, gives a name twice, gives a name that is no name of a package, or has a path with no package or with no quotes just around it. A name is found exactly if the block gives it, with its path.",
  "every list of lines of any length, every indentation, rename, path and comment, every rest of the file",
  "Texts of any length with any mix of lines.",
  ["clawc/internal/idl/idl.go: Import.parse", "clawc/internal/idl/idl.go: validImportPath", "clawc/internal/idl/idl.go: withoutCommentEOL", "clawc/internal/idl/idl.go: pkgFromImpPath", "clawc/internal/idl/idl.go: Import.ByPkgName", "clawc/internal/idl/idl.go: ValidPackage"])
p("C131", "The schema file of a package is fetched from its repository",
  "For a package and a version, a hash of a commit or the name of a tag, the only schema file in the directory of the package at that version is given; a global.replace file leads on to another package, of the same or another repository, at most four times. With no version it is the latest one, and the version that comes with a file gives the same file again. Everything else is an error; there is no panic.",
  "every set of repositories, commits, tags and directories, every path and version, every chain of global.replace files",
  "Repositories of others, and chains of replacements through them.",
  ["clawc/internal/imports/git/git.go: GetClawFile", "clawc/internal/imports/git/git.go: cloneRepo", "clawc/internal/imports/git/git.go: versionCheckout", "clawc/internal/imports/git/git.go: FindClawFile", "clawc/internal/imports/git/git.go: GetLatestVersion", "clawc/internal/imports/globalreplace/globalreplace.go: GlobalReplace.ParseWith"])
p("C132", "The compiler finds the git repository it is in",
  "Inside a work tree of git 2.18.0 or newer the compiler takes the root of that work tree, and host/path of the remote origin for its name, however the remote is written and wherever the work tree is. With an older git or outside a work tree it does without; there is no panic.",
  "every version and output of git version, every directory of a work tree, every remote",
  "Tests have one git, one checkout and one remote (the only test runs on one named machine).",
  ["clawc/internal/vcs/vcs.go: NewGit", "clawc/internal/vcs/vcs.go: Version.FromString", "clawc/internal/vcs/vcs.go: Version.meetsMin", "clawc/internal/vcs/vcs.go: Root", "clawc/internal/vcs/vcs.go: Origin", "clawc/internal/vcs/vcs.go: InRepo"])
p("C133", "Keepalive closes dead connections and only those",
  "A client connection on which nothing is received for the ping interval sends a ping. A connection whose peer answers in time, or from which something is received in every interval, is never closed by this; a connection from whose peer nothing comes any more is closed after two intervals and the timeout at most. This holds for every interval and timeout, however the streams of the connection are used.",
  "every interval and timeout, every sequence of messages in time, every outcome of writes",
  "Timeouts, dead peers, full buffers and slow readers are not met in tests.",
  ["rpc/client/client.go: pingLoop", "rpc/client/client.go: handlePong", "rpc/client/client.go: markActivity", "rpc/client/client.go: readLoop", "rpc/client/client.go: WithPingInterval"])
p("C134", "clawc init sets up a module, and clawc finds its claw.work",
  "clawc uses the nearest claw.work file from the directory up. `clawc init` writes a claw.mod file for a module with the path of the repository and the way from the directory of claw.work, writing a claw.work file at the top of the git work tree if there is none; it overwrites no file, and afterwards clawc finds the claw.work file and the module is in its repository. `clawc` with a schema file or directory compiles that.",
  "every set of files, directories, remotes and arguments",
  "File systems and work trees of all shapes.",
  ["clawc/clawc.go: main", "clawc/clawc.go: handleInit", "clawc/internal/work/work.go: FindWork", "README.md"])
p("C135", "The Go code generated for a map field compiles",
  "For every map field the compiler accepts, the Go code it generates for the field type checks: the type arguments satisfy the constraints of the segment package, every name it uses is declared as what it is used for, assignments are between identical types, and no local variable is unused. The Go types of keys and values are those of the schema.",
  "every text of a type that is read as a map, with any key and value and maps of any depth; every set of structs, enums and imports",
  "Map types nest without bound; the code differs for every kind of value in five templates.",
  ["clawc/internal/idl/idl.go: MapValueGoType, MapRawValueGoType, parseMapType", "clawc/internal/idl/struct.tmpl", "clawc/internal/render/golang/templates/clawiter.tmpl", "clawc/internal/render/golang/templates/clawingest.tmpl", "clawc/internal/render/golang/templates/mappings.tmpl", "clawc/languages/go/segment/maps.go: MapKey, MapValue"])
p("C136", "Comments of a schema are harmless and reach the Go code",
  "Taking the comment lines out of a schema changes nothing of what is parsed but the comments. Whatever a comment says, each line that is written for it to a Go file is a comment and no directive. The comment lines before a struct, enum, field or enumerator are its comment, and their text is written as it stands in the schema.",
  "every list of lines of a schema, with comments of any text and number anywhere in it",
  "Comments may hold any text and stand between any two lines.",
  ["clawc/internal/idl/idl.go: CollectComments, Enum.parse, Struct.fields, FindNext", "clawc/internal/idl/struct.tmpl", "clawc/internal/render/golang/templates/enums.tmpl"])
p("C137", "Lists obtained through reflection can be changed",
  "Set stores a value at an index: Get gives it back, through every copy of the list, and no other item changes. Append adds a value at the end. Both panic for a value that is no item of the list, and Get and Set panic for an index outside of it. Type gives the type of the list.",
  "every kind of list, every length and capacity, every index, every value",
  "Whether an append is seen depends on capacities and on who holds a copy of the list; values of any type may be passed.",
  ["languages/go/reflect/internal/interfaces/interfaces.go: List", "languages/go/reflect/internal/value/impl.go: ListBools, ListNumbers, ListBytes, ListStrings, ListStructs"])
p("C138", "The vendor directory is a copy of what was fetched",
  "After vendoring, the compiler finds for each external package one schema, with the bytes that were fetched, and its claw.mod. The order in which packages are handled makes no difference. Nothing outside of the vendor directory is written. Vendoring again brings the directory up to date: what belongs to older versions or to packages that are no longer used is gone.",
  "every set of packages with any paths and contents, every order, every number of runs, every file system to begin with",
  "Go takes the packages of a map in random order, and what a run leaves depends on all runs before it.",
  ["clawc/internal/vendor/vendor.go: createVendorStructure, vendorPackage, getClawFileName, IsVendored, GetVendoredVersion", "clawc/clawc.go: findClawFileInDir"])
p("C139", "Reflection describes the schema",
  "The description of a generated package lists the structs and enums of its schema and no others. Looked up by name or by number, a struct, field, enum or enumerator is the one that was declared, with its number, type and size, and what is not declared is not found, without a panic. Fields of different types have different descriptions.",
  "every schema, with any number of structs, enums, fields and enumerators in any order, every name and number that is asked for",
  "The generated tables are read by index in some places and by name in others, and depend on an order that is not that of the file.",
  ["clawc/internal/render/golang/templates/reflect.tmpl", "clawc/internal/render/golang/templates/mappings.tmpl", "languages/go/reflect/internal/value/impl.go: PackageDescrImpl, StructDescrsImpl, StructDescrImpl, FieldDescrImpl", "languages/go/reflect/enums/enums.go"])
p("C140", "`clawc` compiles a schema and all it needs",
  "When clawc succeeds, Go code has been written for the schema and for every package it needs, directly or through others: for packages of the repository beside their schemas, for others in the vendor directory, each in the directory of its own path. Packages that can be had are compiled wherever the repository is checked out, whatever their paths look like, and where claw.mod replaces a package, the replacement is compiled.",
  "every file system, repository, claw.mod and set of schemas with any imports, every order in which Go takes the packages",
  "The command needs git, the network and the go command, and what goes wrong depends on where the checkout is, on how many elements a path has and on which packages have a claw.mod.",
  ["clawc/clawc.go: handleCompile, compileDependencyWithOptions, compileLocalDependency", "clawc/internal/imports/imports.go: VendoredConfig, readConfig, extractModulePathFromDir", "clawc/internal/writer/golang/golang.go"])
p("C141", "`clawc get` fetches and compiles a package at a version",
  "After `clawc get p@v` has succeeded, the vendor directory has the schema of p at version v, and of every package it needs, directly or through others, the one that is to be had; nothing else has changed, and Go code has been written for all of them. Without a version it is the latest. The version stays until another one is asked for, and what claw.mod replaces is replaced.",
  "every file system, repository, claw.mod, package, version and set of schemas with any imports",
  "The command needs git and the network; which version is in the vendor directory shows only after later runs of clawc.",
  ["clawc/clawc.go: handleGet", "clawc/internal/vendor/vendor.go: VendorSingleDependency, processSingleDependency"])
p("C142", "A released struct leaves no trace",
  "A struct that `New` makes from the memory of a released one is like one of fresh memory: all its fields are absent, the calls made on it have the results they have on a fresh one, and its message is the same byte for byte. Making, changing, storing and releasing structs changes no other struct in use and no message the program holds. No call on structs in use panics or hangs because of what was released before.",
  "every sequence of New, calls of setters and getters, storing of one struct in another and Release on any number of structs of any schemas, and every choice of what the pools hand out",
  "What a pool hands out depends on the scheduler and the garbage collector; a test that reuses memory must happen to get the same buffer, with the fields and sizes that show what was left in it.",
  ["clawc/languages/go/segment/struct.go: New, Release, Unmarshal, UnmarshalReader", "clawc/languages/go/segment/segment.go: SegmentPools, FieldIndexPools, Reset", "clawc/internal/idl/struct.tmpl: Release"])
p("C143", "The deadline of a call is kept on both sides",
  "A call or stream that is opened under a deadline runs under that deadline at the server: its handler always gets a context with a deadline, no later than the one of the caller. A timeout of the service configuration is the time each call has. A call returns when its time is over, whatever the server does.",
  "every deadline, every time the Open takes and every difference of the clocks, every configuration, every handler and every sequence of requests of a session, every server and transport",
  "Tests use deadlines of some seconds on a transport without delay, and servers that answer; a deadline that has nearly passed, a stalled transport or a client used longer than its timeout need exact timing.",
  ["rpc/client/client.go: openSession, applyServiceConfig, Sync", "rpc/client/sync.go: Call", "rpc/server/conn.go: handleOpen, runSyncHandler"])
p("C144", "Goroutines may read a decoded struct at the same time",
  "Any number of goroutines call getters of one decoded struct that nobody changes: each call finds what it finds when no other goroutine is there, and the program goes on.",
  "every message, every number of goroutines and calls, every order of their memory accesses that Go allows",
  "Which accesses overlap, and what a racing read gives, is up to the scheduler and the processor.",
  ["clawc/languages/go/segment/struct.go: ensureFieldIndexParsed, FieldOffset, HasField, GetList, SetList", "clawc/languages/go/segment/bytes.go: parseFieldIndex", "clawc/languages/go/segment/getters.go: GetListBools, GetListNumbers, GetListStrings, GetListBytes, GetListStructs"])
p("C145", "Messages over a size limit are rejected, and only those",
  "A message that is larger than the limit of its sender is refused with ErrMessageTooLarge and not sent; one that is larger than the limit of its receiver is rejected with that error; zero and less mean no limit. All other messages of a session get through as they are. An end keeps to the size that the other end says it accepts.",
  "every choice of the four limits, every size and order of messages, every handler, every order of the steps of both ends",
  "Tests try one limit at one end; what happens depends on both ends and on the other calls of the session.",
  ["rpc/client/client.go: WithMaxRecvMsgSize, WithMaxSendMsgSize, WithMaxPayloadSize, sendPayload, handlePayload", "rpc/server/server.go: WithMaxRecvMsgSize, WithMaxSendMsgSize", "rpc/server/conn.go: sendPayload, handlePayload, runSyncHandler, sendOpenAck"])
p("C146", "What was read from a struct does not change when other fields are set",
  "A byte slice or a nested struct obtained from a struct still shows what it showed when it was obtained, after any calls on other fields of that struct. What is then set in the nested struct is in the message of the struct.",
  "every struct, new or decoded, every field, every sequence of calls on the other fields",
  "Depends on the lengths of all fields before the one that was read, and on the room left in the array; most tests read and drop a value at once.",
  [SEG+"bytes.go: GetBytes, GetNestedStruct", SEG+"struct.go: insertField, removeField", SEG+"segment.go: EnsureCapacity, InsertAt, RemoveAt, ReplaceAt"])
p("C147", "Lists of structs reach the message with their items as they are when it is written",
  "After any calls on a struct, on structs made or obtained from its lists, and on those lists (append, replace one, replace all), the next encoded message has each list with exactly its items, as they are at that moment; edits of an item after it was appended count. Encoding does not change the items.",
  "every struct, new or decoded, every number of lists and items, every sequence of calls with Marshal anywhere in between",
  "Depends on when a list was obtained, on whether the message was encoded before, and on whether an item was decoded or made; tests build a list once and encode it once.",
  [SEG+"lists.go: NewStructs, parseFromSegment, Append, Set, SetAll, SyncToSegment", SEG+"struct.go: syncDirtyLists, Marshal", SEG+"getters.go: GetListStructs, ClearField"])
p("C148", "Edits of maps reach the message",
  "After any calls on a struct, its maps (set, delete, clear, read) and the structs stored in its maps, the next encoded message has each map with exactly the entries the edits give, in key order, with stored structs as they are at that moment, and the map accessors answer by the same entries.",
  "every struct, new or decoded, every number and type of maps, every sequence of calls with Marshal anywhere in between",
  "Depends on whether the map was touched before the last Marshal and on whether it was decoded; tests fill a new map and encode it once.",
  [SEG+"maps.go: NewMaps, Set, Delete, Clear, SyncToSegment, GetMap functions", SEG+"struct.go: syncDirtyLists, Marshal", "clawc/internal/idl/struct.tmpl: map accessors"])
p("C149", "A call reaches the handler registered for it, or fails saying why",
  "Opening a call gives a session exactly when a handler of its kind is registered for its package, service and method, the server is not draining and the two ends speak the same protocol version; then that handler runs, once, with the metadata of the call. Otherwise no handler runs and the caller gets the error category the server gave.",
  "every order of registrations, start of draining and calls on a connection, all names, kinds, metadata and versions",
  "Tests register one handler and call it; what is told to the caller of each kind of rejection, names that coincide when joined, and the wrap of the session counter need all cases.",
  ["rpc/client/client.go: Conn.openSession, Conn.handleOpenAck", "rpc/server/conn.go: ServerConn.handleOpen, ServerConn.runHandler", "rpc/server/registry.go: Registry.Register, Registry.Lookup", "rpc/server/handlers.go: Handler"])
p("C150", "A call that is retried or hedged is tried again",
  "With a retry policy, a call on a synchronous client whose attempt fails with a retryable error invokes the handler again, up to the number of attempts, and the caller gets the first outcome that is a success or not retryable. With hedging, the caller gets the reply that is ready first, and neither leaves the client unusable.",
  "all policies, handlers that answer every invocation in their own way, sequences of calls, numbers of hedges, times of arrival and handling, and picks of the selects",
  "Tests of the interceptors use a stub invoker that can be called again after a failure; that the real one cannot shows only in combination with the session.",
  ["rpc/retry/retry.go: UnaryClientInterceptor", "rpc/hedge/hedge.go: UnaryClientInterceptor", "rpc/client/sync.go: SyncClient.Call", "rpc/client/client.go: Conn.handleClose", "rpc/server/conn.go: ServerConn.runSyncHandler, ServerConn.handleCancel"])
p("C151", "Descriptions of structs are prepared once, and checked",
  "Init of a description of a struct ends, prepares it and all descriptions it leads to, each exactly once however often and in whatever order Init is called. MustValidate ends, and panics exactly if a field of a description it leads to is not described as documented.",
  "all sets of descriptions and all ways in which they point at each other, cycles included; all orders of calls",
  "Both are recursive over pointers: whether they end and what they reach depends on the whole graph, and tests have small graphs without cycles.",
  ["clawc/languages/go/mapping/mapping.go: Map.Init, Map.MustValidate, FieldDescr.Validate", "clawc/internal/render/golang/templates/mappings.tmpl", "clawc/languages/go/field/field.go: IsValidMapKeyType, IsValidMapValueType"])
p("C152", "A patch operation that does not fit its field is refused and changes nothing",
  "Apply refuses an operation whose kind the field does not have, or whose data is not exactly a value or list of the type of the field. An operation without a patch inside that is refused leaves the struct as it was. Operations and fields it does not know are skipped: no error, no change.",
  "every struct, schema, field and operation, with any index and any bytes as data",
  "Patches come from other processes: all kinds of operations on all types with data of all lengths have to be looked at.",
  ["languages/go/patch/apply.go: applyOpWithDepth, applySet, applyClear, applyListReplace, applyListSet, applyListInsert, applyListRemove", "languages/go/patch/encoding.go", "clawc/languages/go/segment/getters.go: SetListNumbersRaw"])
p("C153", "Metadata made from values holds these values",
  "Metadata made with Pairs has, under every key in any capitalisation, the last value given for it and nothing under other keys; it panics exactly if the arguments are not pairs of a string and a string or byte slice. What the caller does with the slices afterwards does not change the metadata.",
  "all arguments, keys, contents of memory and later writes of the caller",
  "Whether memory is shared shows only when it is written later; all lists of arguments with repeated keys have to be looked at.",
  ["rpc/metadata/metadata.go: Pairs, Set, Get"])
p("C154", "Iterators visit the items of the list",
  "A loop over All visits the items of the list in order until the body stops, and one over Range(from, to) those with an index in these bounds, cut to the list: no panic, and no item twice. An iterator can be used again and then visits what a new one would. A body that changes the list does not make the loop panic or run forever.",
  "every list, all bounds, every loop body that does not overwrite items in place, any number of uses",
  "All bounds, lists and bodies; that the bounds are kept from the first use shows only in a second one on a longer list.",
  ["clawc/languages/go/segment/lists.go: Bools.All, Bools.Range, Numbers.All, Numbers.Range, Strings.All, Strings.Range, Bytes.All, Bytes.Range, Structs.All, Structs.Range"])
p("C155", "A list of bytes holds values",
  "The items of a list of bytes change only through its methods: what a program writes into slices it gave to Append, Set or SetAll, or got from Get, All, Range or Slice, does not change the list. What the list shows is what is written to the message.",
  "every list, every history of the methods and of writes into slices the program knows",
  "Whether memory is shared shows only when it is written later; all histories have to be looked at.",
  ["clawc/languages/go/segment/lists.go: Bytes.Append, Bytes.Get, Bytes.Set, Bytes.SetAll, Bytes.All, Bytes.Range, Bytes.Slice, Bytes.SyncToSegment", "clawc/languages/go/segment/getters.go: GetListBytes"])
out = os.path.join(os.path.dirname(os.path.abspath(__file__)), "..", "properties.jsonl")
with open(out, "w") as f:
    for x in P:
        f.write(json.dumps(x, ensure_ascii=False) + "\n")
print(len(P))
