# Formal model of bearlytools/claw

This document says what is modelled, how each property of `properties.jsonl`
is stated and proved, what is trusted, and where the code was found to
disagree with the property a user would expect.

## 1. Trusted base

* Lean 4.33.0's kernel. No axioms are added. Every property theorem depends
  only on a subset of Lean's three standard axioms `propext`,
  `Classical.choice` and `Quot.sound` (checked with `#print axioms`, see
  `lean/Verif/Axioms.lean`). There is no `sorry`, `admit`, `native_decide`,
  `bv_decide`, `unsafe` or `implemented_by`.
* The correspondence between the Go text in `/repo` and the Lean definitions.
  It was made by reading; nothing in `/repo` is executed. Every model
  definition cites the file and lines it models, and says where it simplifies.
* Go's semantics as used in the model: `[]byte` as `List UInt8`, fixed-width
  integers as `BitVec w` or as `Nat` with explicit reduction modulo `2^w`
  where the code converts, `int` as an unbounded integer (64-bit overflow of
  `int` is not modelled), floats as their IEEE bit patterns, `panic` as an
  explicit outcome, maps as functions or association lists.

Out of the model: allocation and garbage collection, wall-clock time (timers
are nondeterministic events), operating-system networking, third-party code
(`gostdlib`, `halfpike`, compressors, hash functions — used only through an
explicit law given as a hypothesis), generated code other than the thin
accessors of `struct.tmpl`, and other front ends until listed below.

## 2. Layout of the Lean project

Models are in `Verif/Model/`, helper lemmas in `Verif/Lemmas/`, the statements
of the properties (with non-vacuity examples) in `Verif/Props/`.

| area | model | properties |
|------|-------|------------|
| bytes, little endian, Go `copy` | `Model/Bytes` | – |
| field headers | `Model/Header` | C01 C02 |
| segments and structs | `Model/Struct` | C03 C04 C05 C06 C07 C08 C20 |
| lists | `Model/Lists` | C09 C10 C11 C12 |
| cached list objects | `Model/ListCache` | C18 |
| IsSet tracking | `Model/Struct`, `Spec/IsSet` | C17 |
| typed accessors, client programs | `Model/Api` | C03–C07, C20 |
| maps | `Model/Maps` | C13 C14 |
| Any | `Model/Any` | C15 C16 |
| shared memory | `Model/Alias` | C19 |
| patches | `Model/Patch`, `Model/Recording` | C21 C22 C23 C24 C49 |
| packing | `Model/Pack` | C25 C26 C27 |
| strings and Go maps | `Model/GoStr` | – |
| retry, hedging | `Model/Retry`, `Model/Hedge` | C28 C29 |
| metadata, service configuration | `Model/Metadata`, `Model/ServiceConfig` | C30 C31 |
| other RPC decision logic | `Model/Resolver`, `Model/Balancer`, `Model/Registry`, `Model/Chain`, `Model/ErrCode`, `Model/Compress`, `Model/Credentials`, `Model/Validate` | C32–C36, C44–C46, C52 |
| server connection | `Model/ServerConn` | C37 C38 C39 C54 C55 C56 C57 C59 C61 |
| server | `Model/Server` | C40 C57 C58 |
| synchronous client | `Model/SyncClient` | C41 C60 |
| client connection | `Model/ClientConn` | C62 C63 C64 |
| both ends of a connection | `Model/Packing` | C42 |
| connection pool | `Model/Pool` | C43 C65 |
| reading and writing messages on a connection | `Model/Framing` | C66 C67, C42 on bytes |
| pooled buffers | `Model/Recycle` | C68 |
| schema compiler | `Model/Idl`, `Model/Externals` | C47 C48 C69 C70 |
| token streams | `Model/Token`, `Model/TokenYield` | C71 C72 C73 C74 |
| JSON | `Model/Utf8`, `Model/Json` | C75 C76 C77 C78 C79 C80 |
| text | `Model/Text` | C81 C82 C83 C84 C85 |
| module files | `Model/ModFile` | C86 C87 C88 C89 |
| dependencies | `Model/Vendor` | C90 C91 C92 C93 C94 C95 |
| reflection | `Model/Reflect` | C96 C97 C98 C99 C100 C101 |
| reflection service | `Model/RpcReflect`, `Model/Registry` | C102 C103 |
| stream transports | `Model/Transport` | C104 C105 C106 |
| listeners | `Model/Listener` | C107 C108 |
| telemetry interceptors | `Model/Otel`, `Model/Chain`, `Model/ErrCode` | C109 C110 |
| HTTP transports | `Model/HttpClient`, `Model/HttpServer` | C111–C115 |
| resolving and dialling | `Model/Resolve`, `Model/Resolver`, `Model/Balancer` | C116 C117 |
| health service | `Model/Health` | C118 |
| server streams | `Model/SrvStream`, `Model/Chain` | C119–C121 |
| sending on client streams | `Model/CliSend`, `Model/SrvStream` | C122 |
| names of the generated Go package | `Model/GenGo`, `Model/Idl` | C123 |
| conversion to and from Raw structs | `Model/RawConv`, `Model/Api`, `Model/Maps` | C124 |
| options lines and the head of a file | `Model/Options` | C125, C126 |
| registries of packages and types, the `init` of generated packages, what is hashed for a type | `Model/Link` | C127 |
| writing generated files: one goroutine per package, failing writes, the channel of errors | `Model/Writer` | C128 |
| imports of the three generated Go files, and where they name packages | `Model/GenImports` | C129 |
| import blocks of schema files | `Model/ImportBlock` | C130 |
| fetching schema files from git repositories, global.replace | `Model/Fetch` | C131 |
| what the compiler asks git: version, root, origin | `Model/Vcs` | C132 |
| keeping client connections alive: ping loop, pongs, activity | `Model/KeepAlive` | C133 |
| the command line, claw.work files and clawc init | `Model/Init` | C134 |
| the Go code of map fields | `Model/GenMap` | C135 |
| comments of schemas | `Model/Comments` | C136 |
| changing lists through reflection | `Model/ReflectItems` | C137 |
| the vendor directory | `Model/VendorDir` | C138 |
| descriptions of schemas | `Model/Descr` | C139 |
| `clawc` on a schema | `Model/Compile` | C140 |
| `clawc get` | `Model/Get` | C141 |
| pools of structs, Release | `Model/Release` | C142 |
| deadlines and timeouts of calls | `Model/Deadline` | C143 |
| concurrent reads of a decoded struct | `Model/Conc` | C144 |
| size limits of both ends, sessions of calls and streams under them | `Model/Limits` | C145 |
| byte slices and nested structs obtained from a struct that is changed afterwards | `Model/Look` | C146 |
| lists of structs, their items and the array they live in | `Model/StructList` | C147 |
| map objects and when they are written | `Model/MapCache` | C148 |
| opening a session | `Model/Opening` | C149 |
| retries and hedges over a session | `Model/Attempts` | C150 |
| preparing and checking descriptions | `Model/Prepare` | C151 |
| operations of a patch that do not fit | `Model/Patch` | C152 |
| metadata from values the caller keeps | `Model/MetadataArgs` | C153 |
| iterators over lists | `Model/Iter` | C154 |
| lists of bytes and the slices of the program | `Model/BytesList` | C155 |
| pools registry | `Model/Cas` | C50 |
| bit and byte utilities | `Model/Bits` | C51 C53 |

## 3. Plan per property

* **C01, C02** Round-trip laws over all field values, plus the reverse
  direction (every 8-byte string is an encoding). The encoder is modelled with
  the very sequence of byte stores, shift and or of the code.
* **C03** Refinement. Abstract state: for each field number its encoded field
  (empty when absent). Invariant: the segment is the root header followed by
  the fields in number order and the index holds their offsets. Each setter
  preserves it; the statement is about runs of operations and typed getters
  against a plain record.
* **C04, C07** The index parser is shown to recover the index from the bytes
  for every canonical segment and every schema length.
* **C05** Corollary of the invariant: the bytes are a function of the abstract
  record.
* **C06** Header size: invariant. Alignment: false in the code for number
  lists (see section 4), proved for the aligned kinds.
* **C08** Decoder modelled with fuel-free partiality made explicit (a step
  relation / bounded iteration count); termination is refuted by a witness,
  proved when no field declares size 0.
* **C09–C12** Codec round trips by induction on the list; C11 refuted by a
  witness and exactly characterised.
* **C13** Refinement of parallel sorted slices with binary search to a finite
  map, for any total order on keys.
* **C14** Codec round trip, exact characterisation including the effect of
  padding.
* **C15, C16** Codec laws and the hash check.
* **C17** Bit field content against the history; effect on decoding as a
  decision on the schema size.
* **C18, C20** State machine of cached and dirty lists; refuted with traces,
  proved for the disciplined use.
* **C19** Parent and nested struct as two windows of one array until the nested struct moves; a
  footprint lemma for every call; refuted with traces, proved for the sizes that are safe.
* **C21–C24** Model of Diff and Apply over structs with scalar, bytes,
  list and nested fields.
* **C49** A session with the recorder on; every call commutes with turning the recorder on, and each
  record applied to the copy does what the call did. Induction over the calls of a session.
* **C25–C27** Packing modelled on lists of 8-byte words; round trip by
  induction, worst-case size by a potential argument.
* **C28, C29** Retry as a recursive function over outcomes; hedging as a
  transition system with an inductive invariant.
* **C30–C36, C44–C46, C52** Decision logic over arbitrary inputs.
* **C37–C43** Transition systems with inductive invariants over all runs.
  For the server connection: handlers are arbitrary (they may receive, send
  or return at any time), `pool.Submit` is taken to start the handler, and the
  unsynchronised boolean `packingEnabled` is taken to be read and written one
  access at a time.
* **C54** Ghost-free: the list of frames read is in the execution itself; what
  a handler got is an ordered sublist of those with its identifier.
* **C55** Invariant on the list of frames written, per session.
* **C56** Invariant: a session with an open receive channel is in the map, or
  the read loop is about to close the channel.
* **C57** Invariant on the number of handlers in the limited pool of a
  connection; `Submit` of a limited pool (third-party) is taken to wait for a
  free place. Witnesses for the claim about the whole server.
* **C40, C58** The server is a machine around the machines of its connections
  (`conn_refines`: each connection is an execution of the connection machine).
* **C41** Counting invariant: each payload that came is in at most one place
  (receive channel, channel of a call, result of a call), under its identifier.
* **C59–C61** General theorems about every reachable state that show how the
  claim fails, and the part that holds.
* **C62–C64** Invariants of the client connection over every sequence of frames
  and every interleaving (`Inv`, `FInv`); for C64 a two-phase invariant of one
  session, from its OpenAck to its Close frame and from there on. The failures
  of GracefulClose and of the stream reader are witnesses of full executions.
* **C42** The client machine and the server machine joined by an ordered
  transport that carries frames with the form they were written in; a frame read
  in the other form sets `lost`. Failures are witnesses; the positive theorems
  are invariants over all executions (`Plain`) and over the executions
  with one session (`Stage`, six stages).
* **C66, C67** `io.ReadFull` over the pieces a transport delivers, the readers
  of both ends and what they pass to `make`; round trip by induction over the
  messages; independence of the pieces for all bytes.
* **C68** The buffer pool as a machine of arrays, buffers in and out of the
  pool, and messages that are copies or views; invariant over all
  interleavings.
* **C43, C65** The pool as a machine of connect tasks, read loops, calls, the
  health checker and closers. Failures are witnesses or, where they happen in
  every execution, invariants (`Far`, `Lost`, `Fading`); the positive theorems
  are invariants (`Base`: what is shut down stays so; `Owned`: who must close
  each open connection). Trusted here: `exponential.Retry` hands its function a
  context that ends with the one it was given.
* **C47, C48** The parser of structs and enums (`idl.go`) over the lines the
  lexer produces. What a user writes is a list of declarations with comment
  lines anywhere (`Spec/Idl`: numerals, identifiers, trailing comments); the
  theorems characterise exactly the accepted lists, and what is true of any
  accepted text. Letters and digits are parameters (`Uni`), map iteration order
  is any permutation. Not modelled: the lexer and blank lines.
* **C69, C70** The same parser for types, and the loop over the blocks of a
  file. Types are a small inductive specification with their texts (`Written`,
  `MapTy`); an invariant of the loop says of every field which line it came from
  and what its type means given the identifiers so far, which adding further
  identifiers keeps.
* **C71 to C74** The generated methods Walk and Ingest as functions from struct
  values to token lists and back, for any table of declarations. Ingest is
  written with a bound on its turns, which is shown to suffice for every stream
  (`ingest_total`). The round trip is by induction over values; C74 models Walk
  as a list of checked calls and calls of nested methods.
* **C75 to C80** The writer of JSON as a function from tokens to lexemes, strings
  as functions on bytes. JSON itself is specified apart: UTF-8 and a parser of
  strings after RFC 8259, values and their text. By induction over values the
  text equals the text of the value meant. What decodes an Any is a parameter, as
  is the text of floats. The reader is a decoder of lexemes followed by the code's
  translation to tokens and by Ingest; what it makes of the writer's text is
  proved by the same induction, to the last detail (`back`), from which both the
  cases where the round trip holds and those where it fails follow.
* **C81 to C84** The writer as a function from tokens to bytes, the parser as a
  function from lines to tokens with a stack for the calls that wait. The lexer
  `halfpike` (lines, words separated by white space, blank lines not handed
  out, `Validate` called at the end) and the formatting and
  parsing of floats are trusted: the latter are parameters with the laws
  `FloatsOk`. What comes back is a function on values, specified apart; that the
  parser and Ingest give it is by induction over values, with the text of the
  rest of the struct arbitrary.
* **C85** The forms of `docs/clawtext/clawtext.md` as functions from values to
  text (`listText`, `mapText`, `Marshal` within braces); induction on the rows of
  a list, the structs of a list, the entries of a map and the lines of a string.
  Where the documented form is not read, the negation.
* **C86 to C89** The line readers of `imports.go` and `work.go` as functions over
  the lines and words of a file (by `halfpike`, as for C81), with the values that
  Go leaves nil explicit. A file is a list of parts with a text each, specified
  apart; that the reader gives what the parts say is by induction over them, and
  that no file at all gives more by an invariant over the lines read.
* **C90 to C95** `vendor.go` and the recursive readers of `imports.go`, with the file
  system, git and the network as parameters. Recursion has a depth that stands for
  the stack; a call deeper than that is a panic, and the theorems show that a depth
  above the number of packages is enough. Reachability and cycles are inductive
  relations over an arbitrary edge function (`Spec/Graph`); acyclicity is shown by
  well-foundedness (`Acc`). Global replacements are left out. That go-git calls the
  tag v1.2.3 `refs/tags/v1.2.3` is a hypothesis of C95.
* **C96 to C101** `impl.go`, `value.go` and `valueof.go` of the reflection package over the model
  of a struct with its list cache. A struct is one that a program of generated calls made (`run`);
  what reflection does is compared with the generated methods and with the bytes. Copying is an
  induction over the field descriptions. The conversions of float32 to float64 and back and
  `fmt.Sprint` are parameters. Observed but not modelled: `Append` of the reflected lists
  has a value receiver, so that it changes nothing (impl.go 243, 304, 337, 370, 418).
* **C102, C103** The reflection service of the RPC server: `checkAccess` with the parts of Go's
  `net` it uses (`To4`, masks, `Contains`, `ParseCIDR`, `SplitHostPort`, dotted IPv4; IPv6 texts
  are a parameter) and the address an HTTP connection is given, against ranges defined on bits;
  the listing as a fold over the handlers in any order, against membership, order and equality
  under permutation.
* **C104–C106** The TCP and Unix transports as a transition system: any number of goroutines, each
  between two operations on a mutex or on the network at a time, a network that may fail or stop
  taking bytes anywhere.  Invariant over reachable states; termination by a rank that falls with
  every step; deadlock as a pair of states no step leaves.
* **C107, C108** `Accept` with its goroutine and channel as a transition system, cancelled contexts
  being a parameter; the socket file as the sequence of states the system calls leave.
* **C109, C110** The telemetry interceptors as functions of a handler whose result records what
  happened, put into the chain of C35 and in front of the error codes of C36; the rules against
  the ranges of C102.
* **C111, C112, C113** The HTTP client transport as a transition system over generations (one pipe and one
  context each), requests, contexts of callers and goroutines; a refused or pending request, a body read and a
  pipe write are steps of their own.  Invariants; a second system with no overlapping `Reconnect` for the
  positive theorems; disagreements as executable schedules.
* **C114** Decision function of the handler over all requests and headers.
* **C115** The transport of a served request as a transition system; invariant on the mutex, the writer and `Close`.
* **C116** net.SplitHostPort and JoinHostPort as functions on bytes, the name server as any function; what an endpoint means as a relation of its own.
* **C117** The dialer with any resolver, picker and set of addresses that are up; induction on the number of calls.
* **C118** The table of statuses and both messages on the wire; induction on the history.
* **C119** `Recv` as a state machine with the read loop and the context as its environment; invariant on what was taken.
* **C120** The chain of C35 with streams as requests; a type assertion on a foreign stream is a panic.
* **C121** The trailer as a map of buffers with a heap, so that copies and shared buffers differ; induction on the calls.
* **C122** Any number of calls on one stream as a state machine; invariant on what each call has written, at each place in its code; composed with C119 for what the handler receives.
* **C123** The declarations and the references of initialisers as lists that the templates give for a settled schema; validity as the Go specification has it; the cycle by simulation between the references of variables and the relation of one struct holding another; distinctness by an argument on prefixes and suffixes. Composed with the parser of C69.
* **C124** NewFooFromRaw as the program of setter calls it makes, ToRaw as reads of the struct that results; the Raw struct of a record and the record of a Raw struct as an independent specification; mutual induction over schema and value in both directions, composed with the representation invariant of C01 and the canonical bytes of C05; order of map entries from the refinement of C13 and uniqueness of sorted permutations.
* **C125** The two loops of the parser as functions on lists of runes, the Unicode tables as a parameter; well-formed lines as all renderings of lists of options with any spaces; read back by induction over options, arguments and spaces through a relation of turns of the loop; soundness by an invariant of both loops.
* **C126** The flags of the file as a summary of the lines before, by induction on the sequence; acceptance as a condition on each line and all lines before it.
* **C127** Start of a program as a fold over its packages; the entry of a hash by induction on the packages, with collision-freeness as a hypothesis on the hash.
* **C128** Interleavings of goroutines as sequences of actions; invariants for where each goroutine is and what it has written, a measure for termination.
* **C129** Each file as imports, uses with the variables in scope, and predeclared names; one equivalence for any such file, instantiated three times.
* **C130** The block as text; the loop by induction on the lines, deciding at each line between an import more and an error.
* **C131** Repositories as functions from hashes to trees; induction on the number of redirects left, and on chains of global.replace files.
* **C132** Outputs of git as arguments; the leftmost match of the version, splitting at `.git`, and net/url's Parse, for all texts around and within them.
* **C133** Time in instants, the messages of each instant a function; an invariant of the ping loop over all instants (what was received since, what is awaited, why it closed), and a bound by the tick that sees the silence.
* **C134** File systems as functions from directories and names; induction on the directory for the nearest claw.work file; the files after `clawc init` are read again by the same functions.
* **C135** The templates give lists of demands (constraints, names, assignments, uses of locals); a small Go type checker says when they are met; case analysis on the map type, whose depth does not matter.
* **C136** Parsing commutes with taking out comment lines, by induction over the lines for enums, fields and files. The lines of the text that is written are computed from the comment lines.
* **C137** Slices are pointers into a heap of arrays with room behind the items. `Set` is followed through every slice of the heap; `append` writes into room that no copy of the list sees, or into a new array.
* **C138** A file system as a finite map from paths to entries. What one package writes is a set of paths; the sets of two packages with clean paths meet only in directories, and so by induction over the packages every file has the contents of its package, in every order.
* **C139** The templates give a tree of descriptions for a parsed and settled file; the methods are lookups in it. Composed with the parser of C47, C48 and C69, so that what is found is compared with the lines of the schema.
* **C140** handleCompile composed of the collection of dependencies (C90), the vendor directory (C138), the order (C91) and the readers of imports (C92) over one file system, with git, the network and `go get` as parameters. What was written is a list of packages with directories.
* **C141** handleGet on the file system of C140: the collection of C90 with the version given, the vendor directory of C138, and the compilation of a vendored package of C140. The version of the package is taken care of by a claw.mod that requires it (`pinned`), shown to make no other difference.
* **C142** A state machine over segments, field indexes, pools and structs; `Allowed` is the contract (a released struct is not used). The invariant: structs in use have segments and indexes of their own, none of which is in a pool, pooled segments are 8 zero bytes, pooled indexes are empty, and each struct represents the record of its calls (the invariant of C03). The violations are about the shared arrays of C19.
* **C143** Times are integers in nanoseconds; the arithmetic of `time.Duration` is modelled with its saturation and its overflow. The handler and what happens around a call (when writes return, when the other cases of the select get ready) are arbitrary. The theorems are about all of them; `Obeys` is the usual contract of a handler that heeds its context.
* **C144** The index as words of memory with all values they had; goroutines as programs of single reads and stores; reads give the latest value or, as the memory model of Go allows, an older one. The stores are tied to the model of C03 by `parse_entries`. Invariant for accesses one after the other: all stores to a word store its final value, and whoever may read an entry has all stores behind it. For lists the map of lists with the mark by which the runtime of Go detects concurrent use.
* **C145** A session of synchronous calls as a machine: calls, frames in both directions, a handler that gives anything. Invariant: what was asked, what the handler ran on and what came back are the same lists cut at the limits, with the frames on their way in between. Sending and receiving use the model of C44.
* **C146** The slice is the memory of the struct from an offset on, until the struct moves to another array. Invariant: while it is shared, the memory at that place begins with the encoding of the field.
* **C147** Items are structs of a pool; those of a decoded list are views of the array of the parent. Invariant for lists that are empty at the start: no struct of the pool shares the array, each represents its record, and a list is pending exactly when it is live. The loop of `Marshal` is followed list by list, each write being the store of C05. For a decoded list: every view shows what the array has at its place, and stamping it with its own index changes nothing.
* **C148** The cache of map objects is a table by field, typed by the schema. Invariant: each object represents (C13) the entries the specification shows, an untouched field has no object, and a map is pending exactly when it is live. The loop of `Marshal` is followed map by map, each write being the store of C05; the lookup of the entries is then the mathematical map of C13.
* **C149** A client and a server on one connection, with events register, drain and open. Invariant: the registry is that of C34 after the registrations so far, the draining flag says that draining began, and the sessions are numbered from 1 in order. The refutations follow from the exact answer in each state.
* **C150** The retry loop and the hedge race around `doCall` on one session with an arbitrary script of handler outcomes. A session that has ended stays so and its handler is never invoked (induction on the attempts), so all depends on the first outcome; answer times of the one-at-a-time loop by induction on the requests.
* **C151** Depth-first search over numbered descriptions with a bound on the depth of calls, `none` if it is met. Init: induction on the bound, with the number of unprepared descriptions below it; reachability from `Spec/Graph`. MustValidate: induction on the rank for graphs without cycles; on a cycle no bound gives an answer.
* **C152** Case analysis of `applyOp` over all kinds of operations and types; the specification says by type alone how long a value is and which types have items.
* **C153** Induction over the arguments; the specification names the argument a key takes its value from and reads it in the memory of the caller.
* **C154** Induction over the indices left; the loop body is any function on any state in which the list is. The specification is a fold over a part of a plain list.
* **C155** Invariant over histories: no buffer of the list is known to the program. The specification says what each method does to the values.
* **C50** Compare-and-swap loop, arbitrary interleavings.
* **C51** Bit-vector laws.
* **C53** Round trip for every type, value and buffer.

## 4. Disagreements between code and property

Each entry: what the property asks, what the code does, the theorem that proves
it, and the theorem that remains true.

| id | the code | proved by | what holds instead |
|----|----------|-----------|--------------------|
| C03 | a float field set to minus zero is taken for the zero value and reads as plus zero | `C03_minus_zero_is_lost` | `C03_get_returns_last_set_partial` |
| C05 | a bytes value whose encoding is a multiple of 4 GiB leaves its bytes in the message of a struct that looks empty | `C05_four_gib_not_canonical` | `C05_canonical_partial`, `C05_sparse_sorted_partial` |
| C04 C07 C12 | string lists, bytes lists and maps with 4 or more bytes of padding do not read back (C11, C14), so neither does a message that has them | `C11_padding_becomes_an_item`, `C14_padding_becomes_entries` | `C04_marshal_unmarshal_partial`, `C07_schema_evolution_partial`, `C12_struct_list_round_trip_partial` |
| C03 C04 | offset and size of a field are kept in 32 bits while 1 TiB messages are documented: a field whose encoding is a multiple of 4 GiB is stored without error and then absent, for sender and receiver | `C03_four_gib_field_is_lost`, `C04_four_gib_field_is_lost` | `C03_struct_is_record_partial`, `C04_marshal_unmarshal_partial` |
| C09 C10 | the same for a bool list or number list whose encoding is a multiple of 4 GiB | `C09_four_gib_list_is_lost`, `C10_four_gib_list_is_lost` | `C09_bool_list_round_trip_partial`, `C10_number_list_round_trip_partial` |
| C06 | the items of a number list, an Any and a `[]any` are not padded, so messages are not whole words | `C06_number_list_unaligned` | `C06_size`, `C06_alignment_partial` |
| C08 | the index parser loops forever on a struct, list or map field of declared size 0; getters panic and read behind the message | `C08_*` witnesses in `Props/Hostile` | exact hang condition, sufficient condition for every getter |
| C11 | padding of 4 bytes or more behind a string or bytes list is read as an extra empty item | `C11_padding_becomes_an_item` | `C11_exact`, `C11_round_trip_partial` |
| C14 | padding behind a map is read as additional zero entries, which also breaks the binary search | `C14_padding_becomes_entries` | `C14_exact`, `C14_round_trip_partial`, `C14_wide_maps` |
| C14 | a map of 16 MiB or more panics when it is written | `C14_too_large_panics` | – |
| C15 | `SetAny` copies the segment without bringing list objects up to date | `C15_pending_list_edit_is_lost` | `C15_any_round_trip_partial` |
| C16 | `SetListAnyRaw` accepts items that are not structs; the receiver panics | `C16_raw_item_without_data` | `C16_list_any_round_trip_partial` |
| C17 | a cleared field stays marked, lists, maps and explicit zeros are not marked, a second Marshal does not track; the bit field is parsed as a field: with 15–21 fields some bit patterns freeze the receiver, above 32896 fields a phantom field appears | `C17_cleared_still_marked`, `C17_list_not_marked`, `C17_zero_not_marked`, `C17_second_marshal_untracked`, `C17_freezes`, `C17_large_schema_phantom` | `C17_bits_exact`, `C17_bits_faithful_partial`, `C17_harmless_partial` |
| C18 | edits of a list after a Marshal, and of a decoded list, never reach the message | `C18_*` in `Props/ListCache` | `C18_exact` and the theorem for connected lists |
| C19 | a nested struct obtained from a decoded parent shares its array: growing overwrites the parent's next fields, shrinking leaves bytes that receivers take for fields of the parent, growing without room detaches it silently | `C19_growth_corrupts`, `C19_shrink_misread`, `C19_growth_not_seen` | `C19_not_larger_partial`, `C19_last_field_partial`, `C19_same_size_partial` |
| C20 | Unmarshal into a used struct keeps stale index entries | `C20_*` witness in `Props/Struct` | partial theorem beside it |
| C23 | the depth limit is found only when the deep operation is reached: the operations before it stay applied; patches inside operations have no operation limit (and their version is not checked) | `C23_depth_noticed_late`, `C23_inner_ops_unlimited` | `C23_too_many_ops`, `C23_deep_patch_rejected`, `C23_limit_exact` |
| C22 | a list of bytes absent on a side makes Diff panic; Any and Map fields make Diff fail even when equal; NaN payloads and the sign of zero are not differences | `C22_nil_bytes_list`, `C22_nil_bytes_list_panics`, `C22_unsupported` | `C22_empty_iff_equal`, `C22_equal_gives_empty_partial`, `C22_unchanged_partial` |
| C21 | a patch that makes a nested struct (or an item of a list of structs) larger is applied without an error and leaves a corrupt message: the nested header has the new size, the parent has not grown; a diff of two long lists has more than the 10000 operations Apply accepts | `C21_struct_growth_corrupts`, `C21_struct_item_lost`, `C21_patch_too_large` | `C21_apply_diff_partial`, `C21_diff_then_apply_partial` |
| C24 | ListInsert and ListRemove on lists of structs write the old items twice; ListInsert does not see unwritten edits of a number list; ListSet on bools, strings and byte slices of a settled struct is not marshalled; a negative index in ListStructPatch panics | `C24_struct_insert_duplicates`, `C24_struct_remove_duplicates`, `C24_unwritten_numbers_ignored`, `C24_set_not_written`, `C24_struct_patch_negative_panics` | `C24_list_edits_partial`, `C24_struct_list_set`, `C24_struct_list_range`, `C24_struct_remove_last` |
| C27 | Unpack panics on a truncated word and on huge declared sizes | `C27_*` in `Props/Pack` | exact panic condition |
| C28 | up to `MaxAttempts`+1 calls are made; the first backoff is not capped; errors are classified by searching their text, not by their code | `C28_one_call_too_many`, `C28_code_is_not_consulted` | `C28_bounded_calls`, `C28_retry_partial`, `C28_backoff_capped` |
| C30 | appending to a context that carries nil metadata panics | `C30_append_after_nil_metadata_panics` | `C30_append_keeps_parent` |
| C31 | a `/` or `*` inside a package or service name makes two methods share a configuration | `C31_slash_confuses` | `C31_most_specific_partial` |
| C33 | the 64-bit counter wraps, so over a window across the wrap one candidate is picked too often unless the number of candidates divides 2^64 | `C33_unfair_across_the_wrap` | `C33_round_robin_fair_partial` |
| C34 | a `/` in a name makes two different methods share a registration | `C34_slash_collision` | `C34_first_registration_wins_partial` |
| C35 | stream interceptors of the client are stored and never called | `C35_client_stream_interceptors_ignored` | `C35_nested_in_order` |
| C36 | an error whose category is a multiple of 65536 is sent as success; a synchronous call panics if the session is closed first; a stream may end without its error | `C36_unknown_category_looks_like_success`, `C36_sync_call_may_panic`, `C36_stream_error_may_be_lost` | `C36_code_is_category_partial`, `C36_sync_outcomes`, `C36_stream_outcomes` |
| C38 | after 2^32 opens on a connection the identifier wraps: 0 is given out, then identifiers of sessions that may be alive | `C38_ids_wrap` | `C38_ids_unique_partial` |
| C39 | GracefulClose returns nil at once if the connection is already closed, while handlers still run | `C39_returns_early` | `C39_success_means_done_partial` |
| C57 | the limit on concurrent handlers is per connection, not per server; a session beyond the limit is accepted and then blocks the read loop of its connection until a handler returns, so frames for running handlers (payloads, Close, Cancel) are not read: with clients that keep sessions open the connection is stuck | `C57_limit_per_connection`, `C57_limit_stalls` | `C57_handler_limit_partial` |
| C58 | Shutdown does not wait for handlers of connections that ended before (client gone): it returns nil while they run | `C58_shutdown_leaves_handlers` | `C58_handlers_done_partial` |
| C41 | after 2^32 calls on a client the request identifier wraps: a call that still waits returns the reply to a new call | `C41_ids_wrap` | `C41_reply_is_ours`, `C41_no_duplicates`, `C41_only_one_owner_partial`, `C41_reply_not_lost_partial` |
| C42 | Open and OpenAck are always written plain but read packed once packing is on: a second session on a packed connection breaks it, and so do a ping before the OpenAck, a GoAway before it and a given-up Open | `C42_second_open_lost`, `C42_concurrent_opens_lost`, `C42_ping_lost`, `C42_goaway_lost`, `C42_timeout_lost`, `C42_open_lost` | `C42_plain_partial`, `C42_single_session_partial` |
| C43 | without health checks no call gets a connection; calls go to connections known to be unhealthy; a late failure report closes the new connection; two reports leak a connection that stays usable after Close; concurrent Close panics | `C43_unusable_without_health_checks`, `C43_call_on_unhealthy`, `C43_late_report_closes_new`, `C43_connection_leaks`, `C43_call_sent_after_close`, `C43_close_twice_panics` | `C43_no_call_after_close`, `C43_new_call_refused`, `C43_no_lost_wakeup`, `C43_no_panic_partial`, `C43_all_closed_partial`, `C43_chosen_was_serving_partial` |
| C65 | `connectWithRetry` cancels on return the context its connection runs under, so every pooled connection stops reading; a connection lost while idle is never replaced, since `waitForReady` returns an error the pool does not take for a connection error | `C65_one_frame_after_connect`, `C65_checks_fail_after_connect`, `C65_healthy_server_dropped`, `C65_lost_connection_stays` | none |
| C66 | a stream that ends right after the header of a message is reported as the regular end of the stream (`io.ReadFull` returns `io.EOF` when it reads nothing, `UnmarshalReader` passes it on) | `C66_cut_after_header_looks_like_the_end` | `C66_messages_one_by_one`, `C66_pieces_do_not_matter`, `C66_cut_is_an_error_partial` |
| C67 | the reader allocates what the header of a message declares before any of it has arrived; the configured maximum is looked at only afterwards, for the payload | `C67_eight_bytes_ask_for_anything`, `C67_sixteen_bytes_ask_for_anything`, `C67_sixteen_bytes_panic` | `C67_received_message_partial` |
| C68 | the server's `readPackedMsg` releases the buffer that its message is a view of; the next message received or packed anywhere in the process overwrites a payload a handler still holds | `C68_next_message_shows_through`, `C68_server_message_changes` | `C68_copies_are_exact_partial`, `C68_intact_until_reuse_partial` |
| C42 | a packed message of 896 to 960 KiB read as a plain one is an empty message, without error | `C42_packed_read_as_empty` | `C42_packed_read_as_plain_fails`, `C42_plain_read_as_packed_fails` |
| C59 | the server ignores which call a Cancel is for and ends the session, with all its calls in progress | `C59_cancel_ends_session` | `C59_other_sessions_partial` |
| C60 | `doCall` receives from the receive channel without checking that it is open: when the server closes the session or the connection ends, a waiting call may get the zero payload and panic (nil struct) | `C60_closed_session_panics` | `C60_no_panic_while_open_partial` |
| C61 | the read loop of the server waits at the full channel of one session and reads no other frame | `C61_slow_handler_blocks` | `C61_room_goes_on_partial` |
| C63 | GoAway makes the client close the connection at once, and a waiting GracefulClose returns nil with sessions open; an open that times out does not tell GracefulClose that nothing is open any more | `C63_nil_with_open_sessions`, `C63_waits_for_nothing` | `C63_no_new_sessions`, `C63_success_means_done_partial` |
| C64 | the iterator of a stream ends without error when the connection is lost or the context ends in the middle; messages that are too large or cannot be decompressed are left out without error | `C64_truncated_without_error`, `C64_cancelled_without_error`, `C64_gap_without_error` | `C64_no_early_end_partial`, `C64_stream_complete_partial` |
| C44 | empty data passes with an unregistered compression; a frame that cannot be decompressed is dropped silently | `C44_empty_is_not_checked`, `C44_unknown_frames_are_dropped` | `C44_unknown_is_an_error_partial` |
| C45 | keys that differ in case only give a result that depends on map order; the token is written into the caller's own map | `C45_case_variants_are_ambiguous`, `C45_token_leaks_through_the_callers_map` | `C45_metadata_sent_partial` |
| C46 | a slash in the call name makes the client skip its validators; the stream interceptor makes every stream handler panic; validation errors are sent with code 13 | `C46_client_skips_validators`, `C46_stream_interceptor_panics`, `C46_code_of_validation_errors` | `C46_server_guards`, `C46_client_guards_partial` |
| C49 | Recording an Any's setter gives an operation `Apply` rejects; a map's `Set`/`Delete` give operations it skips without an error; `Append` to a list of structs that is not empty writes the old items twice; one `Append` of 10001 values gives a patch that is rejected. `ClearField` and edits of a struct got from a getter are not recorded on the parent, and `struct.tmpl:917` mentions `patch.NewPatchFromOps`, which does not exist (not modelled) | `C49_any_rejected`, `C49_map_calls_skipped`, `C49_struct_append_duplicates`, `C49_long_session_rejected`, `C49_append_rejected` | `C49_replay_partial` |
| C51 | SetValue neither masks the value nor clears the old one; ClearBits of a 64-bit range that does not start at 0 also clears the bits below | `C51_set_value_spills`, `C51_clear_range_too_much` | `C51_set_value_partial`, `C51_clear_range_partial` |
| C53 | the generic Put of an int8, int16 or int32 writes 8 bytes (or panics); PutBuffer panics for every type but int64 | `C53_put_signed`, `C53_put_buffer` | `C53_direct_round_trip`, `C53_put_round_trip_partial` |
| C47 | field numbers are converted to uint16 after a check against the upper bound only: `@-65536` is field 0 | `C47_negative_accepted` | `C47_accepted_iff`, `C47_dense_iff_partial` |
| C48 | the declared width of an enum is not enforced, values wrap at 65536, and an enum whose values are not 0..n-1 makes the code generator panic | `C48_width_not_checked`, `C48_wraps`, `C48_gap_not_rendered` | `C48_distinct`, `C48_values_kept_partial`, `C48_renders_iff_dense_partial` |
| C69 | the value types of maps are never looked up: a missing struct or an enum is compiled as a struct; `map[string][]int32`, `map[string]` and `[]A[]B` are accepted; `.Name` and `pkg.` are accepted and make clawc panic | `C69_map_values_not_checked`, `C69_malformed_types_accepted`, `C69_edge_dots` | `C69_types_as_written_partial`, `C69_imported`, `C69_not_imported`, `C69_identifiers` |
| C70 | fields of a struct may share a name | `C70_duplicate_fields_accepted` | `C70_distinct_names_partial` |
| C72 | an unknown field of type []Any, or a map of such, is not skipped: `SkipValue` has no case for it | `C72_unknown_any_list_refused` | `C72_other_declarations_partial`, `C72_unknown_fields_ignored_partial`, `C72_unknown_field_refused` |
| C73 | Ingest into a struct with contents extends lists, adds map entries and keeps structs that are nil in the stream | `C73_lists_extended`, `C73_nil_keeps` | `C73_merged_partial`, `C73_replaced_partial` |
| C74 | Walk ignores that its callback returned false inside a nested struct and calls it again | `C74_called_again` | `C74_stops_partial`, `C74_in_order_partial` |
| C76 | the structs of a list are written without commas between them | `C76_struct_list_broken` | `C76_marshal_json_partial`, `C76_json_iff_partial`, `C76_array_partial` |
| C77 | maps, Any values and lists of structs that were written cannot be read; floats are read by their integer part, taken for bits; bytes are not decoded from base64 | `C77_refused`, `C77_float64_lost`, `C77_float32_lost`, `C77_bytes_lost`, `C77_large_lost`, `C77_unnamed_enum_lost` | `C77_result_partial`, `C77_unchanged_partial` |
| C78 | the text after the object is not looked at, types are not compared, numbers wrap | `C78_rest_ignored`, `C78_truncated_accepted`, `C78_string_for_number`, `C78_number_for_string`, `C78_number_wraps` | none |
| C79 | keys that are no strings are written as the empty name | `C79_number_keys_lost`, `C79_same_names` | `C79_string_keys_partial` |
| C81 | a string is cut off at its first white space if that follows a quote | `C81_quote_space_lost` | `C81_unchanged_partial`, `C81_escape_partial` |
| C82 | `null,`, `true,` and `[1,` are not recognised because the comma is part of the word: lists, maps, Any values and nil structs that were written cannot be read, true comes back as false; whole floats are taken for bits; bytes are not decoded from base64 | `C82_container_refused`, `C82_true_lost`, `C82_large_refused`, `C82_whole64_lost`, `C82_whole32_lost`, `C82_special_lost`, `C82_bytes_lost`, `C82_unnamed_enum_lost` | `C82_result_partial`, `C82_unchanged_partial` |
| C83 | the rest of the line and of the text is not looked at, types are not compared, numbers wrap | `C83_rest_ignored`, `C83_line_rest_ignored`, `C83_word_for_number`, `C83_string_for_number`, `C83_number_for_string`, `C83_number_wraps`, `C83_backquote_comma` | none |
| C84 | what follows a comment on its line is ignored; `/*/` is taken for a whole comment | `C84_after_comment_lost`, `C84_short_comment` | `C84_comments_partial` |
| C85 | of the forms in docs/clawtext/clawtext.md, lists, maps, `null,` and Any are refused, `true,` is read as false, `0x…` as 0, the second field of a line and the first line of a backquoted string after its first word are ignored | `C85_list_refused`, `C85_map_refused`, `C85_null_refused`, `C85_null_string`, `C85_any_refused`, `C85_true_lost`, `C85_hex_number_lost`, `C85_second_field_lost`, `C85_backquote_words_lost` | `C85_list_partial`, `C85_bool_list_partial`, `C85_string_list_partial`, `C85_struct_list_partial`, `C85_map_partial`, `C85_string_map_partial`, `C85_backquote_partial`, `C85_bool_partial` |
| C86 | a require block, a list of ACLs and a comment without a blank after `//` are refused, whatever is in them | `C86_require_refused`, `C86_list_refused`, `C86_comment_refused`, `C86_example_refused`, `C86_no_versions_no_lists` | `C86_read_partial` |
| C87 | `clawc init` in a directory with a hyphen in its name writes a claw.mod file that is refused | `C87_hyphen_refused` | `C87_work_partial`, `C87_module_partial`, `C87_in_repo_iff`, `C87_new_module_in_repo` |
| C88 | every local.replace file with an entry makes clawc panic | `C88_panics`, `C88_never_replaced` | `C88_read_partial` |
| C89 | the claw.mod file written for a vendored public package is refused | `C89_importable_refused` | `C89_read_back_partial` |
| C90 | `clawc get` panics outside of a git repository | `C90_get_panics` | `C90_graph`, `C90_error`, `C90_ends`, `C90_succeeds` |
| C91 | the order of compilation has each package before those that it imports | `C91_importers_first`, `C91_dependencies_never_first` | `C91_each_once`, `C91_fails_iff`, `C91_collected` |
| C92 | who may import a package is not checked for packages that are not at a local path, nor for lists; rules for pre/* let in all paths that begin with pre | `C92_not_enforced`, `C92_lists_not_enforced`, `C92_alike_let_in` | `C92_check_iff_partial`, `C92_private_refused_partial` |
| C93 | cycles among vendored packages that do not go through the root are accepted by the reader of the vendor directory | `C93_vendored_cycles_accepted` | `C93_read`, `C93_read_fails_iff`, `C93_vendored` |
| C94 | a package of another repository whose path begins alike is taken for one of the repository | `C94_alike_confused` | `C94_inside_partial`, `C94_outside_partial` |
| C95 | no tag is ever checked out; a version is taken for a hash; the version `v` panics | `C95_tags_never`, `C95_version_taken_for_hash`, `C95_v_panics` | `C95_spec_partial`, `C95_hash_partial` |
| C96 | Get of an unset field is nil; Set of an empty string or nil bytes panics; enum numbers without a name and 16-bit enums of other packages panic | `C96_unset_nil`, `C96_empty_panics`, `C96_unnamed_panics`, `C96_imported_panics` | `C96_set_partial`, `C96_get_partial`, `C96_set_get_partial`, `C96_enum_partial` |
| C97 | a populated list, map or Any field cannot be copied | `C97_containers_refused` | `C97_copy_partial` |
| C98 | lists of strings and bytes are read as empty, and reading them hides their items from the generated accessor, so that an append loses them; bools are padded; pending items are not seen | `C98_strings_lost`, `C98_bytes_empty`, `C98_bools_padded`, `C98_pending_unseen` | `C98_numbers_partial`, `C98_structs_partial` |
| C99 | Clear does nothing for lists, maps and Any | `C99_others_kept` | `C99_clear_partial` |
| C100 | the new value of a string, bytes or list field cannot be set; NewField panics for others; a new struct has the type of its parent | `C100_unsettable`, `C100_panics`, `C100_wrong_type` | `C100_plain_partial` |
| C101 | lists, structs with an unset field and enums without a name panic | `C101_list_panics`, `C101_unset_fails`, `C96_unnamed_panics` | `C101_plain_partial` |
| C102 | over HTTP the caller chooses the address that is checked; an address that cannot be read is let in | `C102_forwarded`, `C102_unread`, `C102_zone` | `C102_tcp_partial`, `C102_http_partial`, `C102_token` |
| C103 | a package or service with a `/` in its name is not found | `C103_slash` | `C103_found_partial`, `C103_registered` |
| C105 | a `Write` that fails while `Close` or `Reconnect` waits deadlocks with it; `Close` does not interrupt a `Write` the other side does not read | `C105_deadlock`, `C105_reconnect`, `C105_blocked` | `C105_ends`, `C105_server`, `C105_client_partial` |
| C106 | of two `Reconnect` calls at the same time one leaves its connection open for ever | `C106_leak` | `C106_closed_partial`, `C106_server`, `C106_after` |
| C107 | after a cancelled `Accept` a connection is taken and never returned or closed; `Server.Close` closes no connection being served | `C107_lost`, `C107_server_close` | `C107_once`, `C107_kept_partial`, `C107_order_partial`, `C107_closed`, `C107_unblocked` |
| C108 | everyone may connect between bind and chmod; a second listener takes the path of an open one, and closing the first removes its socket; `Close` removes whatever file is at the path | `C108_window`, `C108_steal`, `C108_foreign_close` | `C108_listen`, `C108_foreign`, `C108_close`, `C108_mode_partial`, `C108_alive_partial` |
| C109 | every error with a category reaches the client as 13, 4 or 1 | `C109_code_lost`, `C109_stream_code_lost`, `C109_chain` | `C109_result`, `C109_counted`, `C109_code_partial` |
| C110 | trace rules are never asked | `C110_ignored` | `C110_config`, `C110_decision`, `C110_sampled` |
| C111 | `Reconnect` in progress succeeds after `Close` has returned; `Close` in the middle of connecting leads to a request with a nil body | `C111_reconnect_ok`, `C111_nil_body` | `C111_released`, `C111_calls` |
| C112 | overlapping `Reconnect` calls split a write, panic in `Write`, take each other's connection down or succeed without one | `C112_split`, `C112_nil_write`, `C112_killed`, `C112_no_error` | `C112_pipe`, `C112_stream_partial`, `C112_up_partial` |
| C113 | the connection ends with the context given to `Dial`; `Connected` stays true after a failure; an old error is reported; the dial timeout is unused | `C113_context_ends`, `C113_always_given_up`, `C113_connected_after_failure`, `C113_old_error`, `C113_no_timeout` | `C113_kept_partial` |
| C114 | nobody checks the protocol version; the client takes any 200 | `C114_version` | `C114_served_iff`, `C114_client_served` |
| C115 | `Close`, and so `ServeHTTP`, waits behind a `Write` the peer does not read | `C115_blocked` | `C115_after_return`, `C115_stream`, `C115_closed_calls`, `C115_close_answer` |
| C116 | SRV records are never used; an IPv6 address in brackets without a port is looked up as a name; an empty port stays empty | `C116_no_srv`, `C116_bracketed`, `C116_empty_port` | `C116_addresses`, `C116_dialable`, `C116_authority` |
| C117 | `Dial` tries one address; the pickers by priority never fall back | `C117_one_try`, `C117_no_fallback` | `C117_only_its_addresses`, `C117_bare`, `C117_passthrough`, `C117_all_tried_partial` |
| C119 | `Err` never gives an error; a stream that was cut looks like one that ended | `C119_no_error` | `C119_in_order`, `C119_complete`, `C119_drains`, `C119_returns`, `C119_stops` |
| C120 | a stream of an interceptor's own makes the server panic; the stream keeps its first context; a `Send` that does nothing reports success | `C120_own_stream_panics`, `C120_context_of_stream`, `C120_send_lost` | `C120_handed_on_partial`, `C120_refused`, `C120_send` |
| C121 | the client never shows a trailer; metadata of later calls are shared, not copied | `C121_lost`, `C121_shared` | `C121_merged`, `C121_sent` |
| C122 | `Send` returns nil though its message is dropped: during `CloseSend`/`Close`, after `Cancel`, after the server ended the call | `C122_racing`, `C122_racing_close`, `C122_after_cancel`, `C122_after_end` | `C122_sent`, `C122_order`, `C122_closed`, `C122_once`, `C122_delivered`, `C122_nothing_else` |
| C123 | recursive structs give an initialisation cycle; fields `X` and `SetX`, fields named like a method, structs `X` and `NewX`, a struct `PackageDescr` give duplicate names; IsSet of an int8 field has the field as its receiver type; maps to imported or undeclared types refer to undeclared variables | `C123_recursive_fails`, `C123_linked_list`, `C123_field_clash`, `C123_method_clash`, `C123_struct_clash`, `C123_package_clash`, `C123_int8_fails`, `C123_map_value_fails` | `C123_cycle_iff`, `C123_refs_partial`, `C123_methods_partial`, `C123_valid_partial`, `C123_careful_valid` |
| C124 | fields of type any and []any are dropped by ToRaw and by NewFooFromRaw; nil items of lists vanish and move the others; empty slices and pointers to zero structs come back nil; minus zero becomes zero; of several NaN keys of a map a random one is kept | `C124_any_lost`, `C124_any_bytes`, `C124_empty_lost`, `C124_zero_struct`, `C124_nil_items`, `C124_minus_zero`, `C124_nan_order` | `C124_exact_partial`, `C124_round_trip_partial`, `C124_back_partial`, `C124_map_order` |
| C125 | lines that are no options lines are accepted: words in no quotes, words behind the last option, missing commas, brackets within names | `C125_not_exact`, `C125_junk_args`, `C125_junk_tail`, `C125_no_comma`, `C125_bracket` | `C125_read_back`, `C125_sound_partial`, `C125_file_iff` |
| C126 | version -1 is accepted, any number of times and anywhere | `C126_negative` | `C126_valid_iff_partial` |
| C127 | a program with two vendored copies of a package, or with a package and a vendored copy, panics before main | `C127_vendored_twice`, `C127_vendored_and_direct` | `C127_starts_iff` |
| C128 | packages named `clawiter`, `clawingest` lose their main file; nothing, or in the wrong place, is written in a fork; `*_test` packages are test files | `C128_lost`, `C128_skipped`, `C128_misplaced`, `C128_test_file` | `C128_written_partial` |
| C129 | renamed imports, and packages with names that generated code uses (`context`, `field`, `string`, `x`, `list`, `type` ...), give Go code that does not compile | `C129_renamed`, `C129_fixed`, `C129_local`, `C129_keyword` | `C129_compiles_partial` |
| C130 | a line with nothing but a comment is refused in an import block; more quotes than one are accepted; names from paths are not checked | `C130_comment`, `C130_quotes`, `C130_unchecked` | `C130_read_partial` |
| C131 | global.replace to another repository always fails; tags cannot be fetched; paths of fewer than three elements panic | `C131_other`, `C131_tags`, `C131_short` | `C131_commit_partial`, `C131_no_panic_partial` |
| C132 | git 3.0–3.17 counts as too old; `.git` in the name of the directory, ssh remotes `user@host:path` and no remote panic; a linked worktree gets the main one's root; `host:path` gives an empty origin | `C132_git3`, `C132_root_name`, `C132_worktree`, `C132_scp`, `C132_scp_host`, `C132_no_remote` | `C132_min_partial`, `C132_root_partial`, `C132_origin_partial` |
| C133 | a ping whose write blocks disables keepalive; interval 0 panics; data does not count while a pong is awaited; one stream that is not read closes the connection for all | `C133_blocked`, `C133_zero`, `C133_data`, `C133_reader` | `C133_dead_partial` |
| C134 | a claw.work file that is not in form is overwritten, or makes clawc fail after a successful init; linked worktrees; panics for ssh remotes; no path can be given | `C134_overwrites`, `C134_shadowed`, `C134_worktree`, `C134_panics`, `C134_command` | `C134_in_git_partial` |
| C135 | map fields with bytes, maps, structs of other packages or enums as values are accepted and the generated Go does not compile | `C135_bytes`, `C135_nested`, `C135_imported` | `C135_iff_partial` |
| C136 | a word written right behind the slashes of a comment is lost, and so is an empty comment | `C136_glued`, `C136_empty` | `C136_same` |
| C137 | a value appended to a list through reflection is never in the list; lists of strings take bools and numbers, lists of structs structs of every type; values of enums cannot be set in lists of enums; the type of a number list is that of its items; Any of a list panics | `C137_append_lost`, `C137_strings_take`, `C137_structs_take`, `C137_enums_refused`, `C137_type`, `C137_any` | `C137_set`, `C137_bounds`, `C137_refused` |
| C138 | a claw.mod of an older version and packages no longer used stay in the vendor directory; a package in a directory x.claw hides the schema of the one above; the version of a vendored package is never known; a path with `..` is written outside of the vendor directory | `C138_stale_mod`, `C138_stale_package`, `C138_claw_directory`, `C138_version`, `C138_escapes` | `C138_vendored_partial`, `C138_order`, `C138_outside`, `C138_again` |
| C139 | packages without enums or structs give nil lists; asking for a field by a lower-case, empty or non-Latin name panics; descriptions do not tell the struct of a field or of a map, or the inner type of a map of maps | `C139_none`, `C139_name_panics`, `C139_not_told` | `C139_structs`, `C139_own`, `C139_enums`, `C139_fields_partial`, `C139_imported` |
| C140 | packages replaced by local directories, local packages without claw.mod or with imports of other repositories, vendored packages with two path elements, and checkouts below a directory with a dot in its name cannot be compiled; outside of git the code of the schema goes to the vendor directory | `C140_replaced`, `C140_beyond_work`, `C140_go_get`, `C140_no_module`, `C140_guess_short`, `C140_guess_dotted`, `C140_guessed`, `C140_outside_git` | `C140_places`, `C140_written_partial`, `C140_succeeds`, `C140_guess_right` |
| C141 | the version that was asked for is forgotten by the next run of clawc; a claw.mod that is refused is ignored; packages of the repository are copied to the vendor directory; a package that is replaced by a directory with a claw.mod cannot be got; outside of git the command panics | `C141_forgotten`, `C141_replaced_module`, `C141_refused_ignored`, `C141_copies`, `C141_no_git_panics` | `C141_vendored`, `C141_version`, `C141_replaced`, `C141_latest`, `C141_written_partial`, `C141_compiled_partial`, `C141_succeeds` |
| C142 | Release of a decoded struct destroys the message in the caller's slice, and the next struct is built in it; Release of a nested struct cuts off the message of its parent; after a broken read a struct has the fields of the released one | `C142_message_lost`, `C142_message_replaced`, `C142_nested_release`, `C142_writes_into_parent`, `C142_cut_message` | `C142_like_new_partial`, `C142_succeeds` |
| C143 | A call opened with less than a millisecond left, or after its deadline, runs at the server without a deadline; a handler may outlive the caller's deadline by the time of the transport; large numbers overflow; a stalled write holds a call for ever; a configured timeout does not bound a call, and is shared by all calls of a client | `C143_short_deadline`, `C143_transport_added`, `C143_wire_overflow`, `C143_stalled_write`, `C143_timeout_ignored`, `C143_shared_timeout` | `C143_handler_deadline_partial`, `C143_call_returns_partial`, `C143_wire`, `C143_open` |
| C144 | While a decoded struct is read for the first time by two goroutines, a field may be found absent, a repeated field may change, lists may come as two objects, and the program may end with a concurrent map access | `C144_field_missing`, `C144_twice`, `C144_lists_fatal`, `C144_lists_differ` | `C144_indexed`, `C144_not_indexed_partial`, `C144_lists_kept_partial` |
| C145 | A message over the limit of its receiver vanishes: the call waits, a stream has a gap, and nobody gets an error; a reply over the limit of the server ends all calls of the session; announced sizes are ignored | `C145_request_dropped`, `C145_reply_dropped`, `C145_reply_ends_session`, `C145_stream_whole`, `C145_told_ignored` | `C145_refused`, `C145_kept`, `C145_answered_partial` |
| C146 | Setting or clearing a field changes what byte slices and nested structs obtained from fields with larger numbers show; when a decoded struct grows, nested structs obtained before are cut off from it | `C146_bytes_change`, `C146_nested_change`, `C146_clear_changes`, `C146_edit_lost` | `C146_bytes_partial`, `C146_nested_partial`, `C146_later_bytes`, `C146_later_nested`, `C146_moved_bytes` |
| C147 | Edits of lists of structs and of their items are lost after `Marshal`; items of a decoded list write over their neighbours or are lost when they grow, and show other bytes when the parent changes; encoding numbers the items | `C147_lost`, `C147_decoded_grow_last`, `C147_decoded_grow_first`, `C147_decoded_clear`, `C147_decoded_two_lists`, `C147_item_header` | `C147_exact`, `C147_reach_partial`, `C147_decoded_edit_partial` |
| C148 | Edits of a map are lost after `Marshal`, even if the map was only read before it, and edits of a decoded map are always lost | `C148_lost`, `C148_read_disconnects`, `C148_decoded_lost` | `C148_exact`, `C148_reach_partial` |
| C149 | The caller of a rejected call is not told the reason; protocol versions are never compared; stream handlers cannot see metadata; a handler registered by pointer never runs; slashes in names reach other handlers; session numbers wrap to the one that means rejected | `C149_reason_lost`, `C149_versions_ignored`, `C149_stream_metadata_lost`, `C149_by_pointer`, `C149_wrong_handler`, `C149_wrap` | `C149_reach_partial` |
| C150 | A failed handler ends the session, so a retry panics instead of invoking the handler again, as does every later call; hedges are queued behind the original, and one that is still waiting ends the session | `C150_one_invocation`, `C150_retry_panics`, `C150_reply_not_given`, `C150_later_calls_panic`, `C150_hedge_no_gain`, `C150_hedge_delays`, `C150_hedge_ends_session`, `C150_hedge_panics` | `C150_success_partial`, `C150_first_final_partial`, `C150_hedge_partial` |
| C151 | MustValidate does not end for structs that hold each other, never accepts a struct that holds itself, and accepts maps with values of types that maps may not have | `C151_validate_endless`, `C151_self_never_accepted`, `C151_any_value_accepted` | `C151_init`, `C151_init_again`, `C151_validate_partial` |
| C152 | Set ignores bytes behind a number; replacing a list of numbers is never refused, whatever the bytes; a replacement without data clears any field, also one that is no list | `C152_trailing_ignored`, `C152_ragged_replace`, `C152_empty_replace_clears` | `C152_set`, `C152_no_items`, `C152_refused_unchanged` |
| C153 | metadata shares byte slices given to Set and Pairs with the caller, whose later writes show in Get | `C153_set_shares` | `C153_pairs`, `C153_panics` |
| C154 | an iterator of Range keeps the bounds of its first use and misses items appended since; it panics if the body shortens the list; All of numbers does not end if the body appends | `C154_used_iterator_is_short`, `C154_shrinking_panics`, `C154_append_forever` | `C154_range`, `C154_all`, `C154_again_partial` |
| C155 | Append takes over the slices given to it; what is written into a slice of Get shows in the list and does not reach the message | `C155_append_shares`, `C155_get_write_lost` | `C155_values_partial`, `C155_sync_partial` |

### What the status in the manifest means

`proved` means that the theorems give the property as it is stated, with its
quantifier. A property is `partial` when a theorem needs a hypothesis the
property does not have, and also when the code violates it and the theorems
prove the violation. An earlier version of the manifest called C03, C04, C05,
C07, C09, C10, C12, C15, C16 and C35 proved although the theorems exclude values
the properties include (see the notes) or a witness contradicts a part of them;
they are partial, and the theorems about them end in `_partial`.
