import Verif.Model.Json
import Verif.Spec.Idl

/-!
# Text: `Marshal` and `Unmarshal` of clawtext

`/repo/languages/go/clawtext/writer.go`, `/repo/languages/go/clawtext/parser.go` and
`/repo/languages/go/clawtext/clawtext.go`.

Simplifications.
* The package `github.com/johnsiilver/halfpike` is modelled after its documentation: a text is a sequence of lines, each
  ended by a newline; the items of a line are its words, separated by white space, and an item for the newline.  Lines
  without words are not handed out: `/repo/clawc/internal/work/work_test.go` 18-20 and the file
  `/repo/clawc/internal/imports/testing/localreplace/good.replace` have such lines, their parsers have no case for them.  What
  follows the last newline of a text is left out: the model says nothing about texts that do not end in a newline.
* `strconv.AppendFloat` with format 'g' and the shortest precision is spelled out for whole numbers below 10^6, which it
  writes without point and exponent; otherwise it is a parameter, as is `strconv.ParseFloat`.
* What is written for an Any that is not nil is `@any(` and then a parameter.
* The calls of the parser that wait for a nested struct are kept in a stack of frames.
* Errors of the `io.Writer` are left out.  `yield` always asks for more: `Ingest` reads no token after the end of the
  struct in any case.
-/

namespace Claw.Text

open Claw.Idl (FT Out decimal numeral atoi)
open Claw.Tok
open Claw.Json (decodeRune encodeRune runes escapeRune hexDigit hexVal hex4 base64 hexOf special)

/-! ### The standard library -/

/-- unicode.IsSpace. -/
def isSpace (r : Nat) : Bool :=
  (decide (9 ≤ r) && decide (r ≤ 13)) || r == 0x20 || r == 0x85 || r == 0xA0 || r == 0x1680 ||
    (decide (0x2000 ≤ r) && decide (r ≤ 0x200A)) || r == 0x2028 || r == 0x2029 || r == 0x202F || r == 0x205F || r == 0x3000

/-- The runes of a string, each with its bytes.  The number bounds the turns. -/
def chunksN : Nat → Bytes → List (Nat × Bytes)
  | 0, _ => []
  | _ + 1, [] => []
  | n + 1, s => ((decodeRune s).1, s.take (decodeRune s).2) :: chunksN n (s.drop (decodeRune s).2)

/-- The runes of a string, each with its bytes. -/
def chunks (s : Bytes) : List (Nat × Bytes) := chunksN s.length s

/-- The bytes of runes. -/
def joined (cs : List (Nat × Bytes)) : Bytes := cs.flatMap (·.2)

/-- A word that may be empty, before other words. -/
def addWord (w : Bytes) (ws : List Bytes) : List Bytes := if w = [] then ws else w :: ws

/-- The words of a line; `cur` is the word that has begun. -/
def wordsFrom (cur : Bytes) : List (Nat × Bytes) → List Bytes
  | [] => addWord cur []
  | (r, b) :: cs => if isSpace r then addWord cur (wordsFrom [] cs) else wordsFrom (cur ++ b) cs

/-- The words of a line. -/
def words (l : Bytes) : List Bytes := wordsFrom [] (chunks l)

/-- `halfpike.Line.Items`: the words and the end of the line. -/
def items (l : Bytes) : List Bytes := words l ++ [[10]]

/-- The lines of a text, without their newlines. -/
def linesFrom (cur : Bytes) : Bytes → List Bytes
  | [] => []
  | c :: s => if c = 10 then cur :: linesFrom [] s else linesFrom (cur ++ [c]) s

/-- The lines of a text. -/
def lines (s : Bytes) : List Bytes := linesFrom [] s

/-- strings.TrimSpace. -/
def trimSpace (s : Bytes) : Bytes :=
  joined ((((chunks s).dropWhile fun c => isSpace c.1).reverse.dropWhile fun c => isSpace c.1).reverse)

/-- `strings.HasSuffix(s, c)` for one byte. -/
def endsWith (c : UInt8) (s : Bytes) : Bool := s.getLast? == some c

/-- `strings.TrimSuffix(s, c)` for one byte. -/
def trimLast (c : UInt8) (s : Bytes) : Bytes := if endsWith c s then s.dropLast else s

/-- `strings.TrimPrefix(s, p)`. -/
def trimPrefix (p s : Bytes) : Bytes := if Str.hasPrefix p s then s.drop p.length else s

/-- `strings.Trim(s, c)` for one byte. -/
def trimByte (c : UInt8) (s : Bytes) : Bytes := ((s.dropWhile (· == c)).reverse.dropWhile (· == c)).reverse

/-- hex.DecodeString. -/
def unhex : Bytes → Option Bytes
  | [] => some []
  | [_] => none
  | a :: b :: r =>
    match hexVal a, hexVal b, unhex r with
    | some x, some y, some r => some ((x * 16 + y).toUInt8 :: r)
    | _, _, _ => none

/-! ### Writing -/

/-- marshalOptions (writer.go 40-44). -/
structure Opts where
  useNums : Bool := false
  hexBytes : Bool := false
  indent : Bytes := [32, 32, 32, 32]

/-- The parameters of the model: the floats that are not spelled out, `strconv.ParseFloat` with 64 bits, and what follows
`@any(`. -/
structure Ext where
  floatText : FT → UInt64 → Bytes
  parseFloat : Bytes → Option UInt64
  anyText : Bytes → Bytes → Bytes

/-- appendEscapedString (writer.go 672-702), on an empty destination. -/
def quoted (s : Bytes) : Bytes := 0x22 :: (runes s).flatMap escapeRune ++ [0x22]

/-- The value of a float in units of its smallest positive value, and the number of these units in 1. -/
def floatParts (t : FT) (d : UInt64) : Int × Nat :=
  match t with
  | .float32 => (F32.value ⟨d.toUInt32⟩, 2 ^ 149)
  | _ => (F64.value ⟨d⟩, 2 ^ 1074)

/-- A whole number below 10^6. -/
def wholeFloat (t : FT) (d : UInt64) : Bool :=
  (floatParts t d).1.natAbs % (floatParts t d).2 == 0 && decide ((floatParts t d).1.natAbs < 10 ^ 6 * (floatParts t d).2)

/-- The sign bit of a float. -/
def signBit (t : FT) (d : UInt64) : Bool :=
  match t with
  | .float32 => decide (2 ^ 31 ≤ d.toUInt32.toNat)
  | _ => decide (2 ^ 63 ≤ d.toNat)

/-- `strconv.AppendFloat(…, f, 'g', -1, …)`. -/
def float (x : Ext) (t : FT) (d : UInt64) : Bytes :=
  if wholeFloat t d then (if signBit t d then [45] else []) ++ decimal ((floatParts t d).1.natAbs / (floatParts t d).2)
  else x.floatText t d

/-- writeValue (writer.go 445-659). -/
def valueText (x : Ext) (o : Opts) (tok : Token) : Bytes :=
  if tok.isNil then lit "null"
  else match tok.type with
    | .struct | .listStructs | .listBools | .listInt8 | .listInt16 | .listInt32 | .listInt64
    | .listUint8 | .listUint16 | .listUint32 | .listUint64 | .listFloat32 | .listFloat64
    | .listBytes | .listStrings | .map | .listAny => []
    | .any => lit "@any(" ++ x.anyText tok.typeHash tok.bytes
    | t =>
      if tok.isEnum then
        if o.useNums && (t == .uint8 || t == .uint16) then decimal (norm t tok.data).toNat
        else tok.enumName
      else match t with
        | .bool => if tok.data ≠ 0 then lit "true" else lit "false"
        | .int8 | .int16 | .int32 | .int64 => numeral (norm t tok.data).toInt64.toInt
        | .uint8 | .uint16 | .uint32 | .uint64 => decimal (norm t tok.data).toNat
        | .float32 | .float64 => if special t tok.data then lit "null" else float x t (norm t tok.data)
        | .string => quoted tok.bytes
        | .bytes => if o.hexBytes then lit "0x" ++ hexOf tok.bytes else 0x22 :: base64 tok.bytes ++ [0x22]
        | _ => []

/-- marshalState (writer.go 73-82), the parts that are read: `firstStack` tells for everything open whether nothing was
written in it yet. -/
structure WSt where
  stack : List Bool := []
  depth : Nat := 0
  top : Bool := true
  inArray : Bool := false

/-- writeIndent (writer.go 435-442). -/
def indentText (o : Opts) (depth : Nat) : Bytes := (List.replicate depth o.indent).flatten

/-- A comma in an array unless nothing was written yet (writer.go 285-294). -/
def sepText (st : WSt) : Bytes :=
  match st.stack with
  | first :: _ => if st.inArray && !first then lit ", " else []
  | [] => []

/-- `state.depthStack[len-1] = false`. -/
def notFirst (st : WSt) : WSt :=
  match st.stack with
  | _ :: s => { st with stack := false :: s }
  | [] => st

/-- The value of a field (writer.go 311-428). -/
def fieldText (x : Ext) (o : Opts) (st : WSt) (tok : Token) : Bytes :=
  match tok.type with
  | .struct | .listStructs | .listBools | .listInt8 | .listInt16 | .listInt32 | .listInt64
  | .listUint8 | .listUint16 | .listUint32 | .listUint64 | .listFloat32 | .listFloat64
  | .listBytes | .listStrings | .map | .listAny => if tok.isNil then lit "null,\n" else []
  | _ => valueText x o tok ++ (if st.inArray then [] else lit ",\n")

/-- writeClawtext (writer.go 112-432).  `opts.Indent` is not empty. -/
def write (x : Ext) (o : Opts) : WSt → List Token → Bytes
  | _, [] => []
  | st, tok :: ts =>
    match tok.kind with
    | .structStart =>
      if st.top then write x o { st with top := false, stack := true :: st.stack } ts
      else lit "{\n" ++ write x o { st with depth := st.depth + 1, stack := true :: st.stack } ts
    | .structEnd =>
      if 0 < st.depth then
        indentText o (st.depth - 1) ++ lit "},\n" ++ write x o { st with depth := st.depth - 1, stack := st.stack.tail } ts
      else write x o { st with stack := st.stack.tail } ts
    | .listStart => lit "[" ++ write x o { st with stack := true :: st.stack, inArray := true } ts
    | .listEnd => lit "],\n" ++ write x o { st with stack := st.stack.tail, inArray := false } ts
    | .mapStart => lit "@map {\n" ++ write x o { st with depth := st.depth + 1, stack := true :: st.stack } ts
    | .mapEnd =>
      indentText o (st.depth - 1) ++ lit "},\n" ++ write x o { st with depth := st.depth - 1, stack := st.stack.tail } ts
    | .mapEntry =>
      indentText o st.depth ++ quoted tok.keyBytes ++ lit ": " ++ valueText x o { tok with type := tok.valueType } ++
        (if tok.valueType = .listAny then [] else lit ",\n") ++ write x o (notFirst st) ts
    | .field =>
      sepText st ++ (if tok.name ≠ [] then indentText o st.depth ++ tok.name ++ lit ": " else []) ++
        fieldText x o st tok ++ write x o (notFirst st) ts

/-- Marshal (clawtext.go 57-76). -/
def marshal (x : Ext) (o : Opts) (env : Env) (s : Nat) (fs : List Val) : Bytes := write x o {} (walk env s (.obj fs))

/-! ### Reading -/

/-- unquoteString, the loop (parser.go 748-785). -/
def unescape : Bytes → Option Bytes
  | [] => some []
  | c :: r =>
    if c = 0x5C then
      match r with
      | [] => some [0x5C]
      | e :: r' =>
        if e = 0x22 then (unescape r').map (0x22 :: ·)
        else if e = 0x5C then (unescape r').map (0x5C :: ·)
        else if e = 0x6E then (unescape r').map (10 :: ·)
        else if e = 0x72 then (unescape r').map (13 :: ·)
        else if e = 0x74 then (unescape r').map (9 :: ·)
        else if e = 0x75 then
          match r' with
          | h1 :: h2 :: h3 :: h4 :: r'' =>
            match hex4 h1 h2 h3 h4 with
            | some n => (unescape r'').map (encodeRune n ++ ·)
            | none => none
          | _ => none
        else (unescape (e :: r')).map (0x5C :: ·)
    else (unescape r).map (c :: ·)

/-- unquoteString (parser.go 737-788). -/
def unquote (s : Bytes) : Option Bytes :=
  match s with
  | 0x22 :: r => if endsWith 0x22 r then unescape r.dropLast else none
  | _ => none

/-- parseQuotedString (parser.go 629-650). -/
def quotedField (tok raw : Bytes) : Option Bytes :=
  let s := trimLast 44 tok
  if endsWith 0x22 s && decide (1 < s.length) then unquote s
  else match Str.index [58] raw with
    | none => none
    | some i => unquote (trimLast 44 (trimSpace (raw.drop (i + 1))))

/-- isNumber (parser.go 716-734). -/
def isNumber (s : Bytes) : Bool :=
  let s := trimLast 44 s
  match s with
  | [] => false
  | c :: r =>
    if c == 45 || c == 43 then
      match r with
      | [] => false
      | d :: _ => decide (48 ≤ d) && decide (d ≤ 57)
    else decide (48 ≤ c) && decide (c ≤ 57)

/-- The choice of a float (parser.go 692, 585). -/
def looksFloat (s : Bytes) : Bool := s.contains 46 || s.contains 101 || s.contains 69

/-- emitNumber (parser.go 684-713). -/
def numberTok (x : Ext) (name : Str) (s : Bytes) : Option Token :=
  let s := trimLast 44 s
  if looksFloat s then (x.parseFloat s).map fun d => { kind := .field, name, type := .float64, data := d }
  else (atoi s).map fun n => { kind := .field, name, data := (Int64.ofInt n).toUInt64 }

/-- The calls of the parser that go on after a nested value. -/
inductive Frame where
  | root
  | nested
  | elems
  | rest (its : List Bytes)
  | map
  | raw (name : Str) (acc : Bytes)
  deriving DecidableEq, Repr

/-- What a step of the parser gives: tokens, and the calls that wait; without them the parser has stopped with an error. -/
abbrev Step := List Token × Option (List Frame)

/-- An error. -/
def stop : Step := ([], none)

/-- One token. -/
def one (t : Option Token) (st : List Frame) : Step :=
  match t with
  | some t => ([t], some st)
  | none => stop

/-- Tokens before those of a step. -/
def before (ts : List Token) (s : Step) : Step := (ts ++ s.1, s.2)

/-- emitArrayElement (parser.go 451-486). -/
def elemTok (x : Ext) (v : Bytes) : Option Token :=
  let v := trimLast 44 v
  if v = lit "true" then some { kind := .field, type := .bool, data := 1 }
  else if v = lit "false" then some { kind := .field, type := .bool, data := 0 }
  else if Str.hasPrefix [0x22] v then (unquote v).map fun s => { kind := .field, type := .string, bytes := s }
  else if isNumber v then numberTok x [] v
  else some { kind := .field, isEnum := true, enumName := v, bytes := v }

/-- The items of a line in parseArrayElements (parser.go 361-399, 414-446); `st` is what follows the array. -/
def elemsLine (x : Ext) (st : List Frame) : List Bytes → Step
  | [] => ([], some (.elems :: st))
  | v :: vs =>
    if v = lit "]" || Str.hasPrefix (lit "],") v then ([{ kind := .listEnd }], some st)
    else if v = lit "," || v = [10] then elemsLine x st vs
    else if v = lit "{" then ([{ kind := .structStart }], some (.nested :: .rest vs :: st))
    else match elemTok x v with
      | some t => before [t] (elemsLine x st vs)
      | none => stop

/-- The value of a field (parser.go 154-292): `its` are the items from the value on, `raw` is the line. -/
def fieldValue (x : Ext) (st : List Frame) (name : Str) (raw : Bytes) (v : Bytes) (its : List Bytes) : Step :=
  if v = lit "null" then one (some { kind := .field, name, isNil := true }) st
  else if v = lit "true" then one (some { kind := .field, name, type := .bool, data := 1 }) st
  else if v = lit "false" then one (some { kind := .field, name, type := .bool, data := 0 }) st
  else if v = lit "{" then
    ([{ kind := .field, name, type := .struct }, { kind := .structStart, name }], some (.nested :: st))
  else if v = lit "[" then before [{ kind := .field, name }, { kind := .listStart }] (elemsLine x st its)
  else if v = lit "@map" then
    match its with
    | b :: _ =>
      if b = lit "{" then ([{ kind := .field, name, type := .map }, { kind := .mapStart }], some (.map :: st)) else stop
    | [] => stop
  else if Str.hasPrefix [0x22] v then
    one ((quotedField v raw).map fun s => { kind := .field, name, type := .string, bytes := s }) st
  else if Str.hasPrefix (lit "`") v then
    if 2 ≤ (v.filter (· == 96)).length then
      one (some { kind := .field, name, type := .string, bytes := trimByte 96 v }) st
    else ([], some (.raw name (v.drop 1) :: st))
  else if Str.hasPrefix (lit "0x") v || Str.hasPrefix (lit "0X") v then
    one ((unhex (trimLast 44 (trimPrefix (lit "0X") (trimPrefix (lit "0x") v)))).map fun b =>
      { kind := .field, name, type := .bytes, bytes := b }) st
  else if isNumber v then one (numberTok x name (trimLast 44 v)) st
  else one (some { kind := .field, name, isEnum := true, enumName := trimLast 44 v, bytes := trimLast 44 v }) st

/-- parseField (parser.go 129-293). -/
def fieldLine (x : Ext) (st : List Frame) (raw : Bytes) : Step :=
  match items raw with
  | a :: b :: its =>
    if endsWith 58 a then
      if b = [10] then stop else fieldValue x st (a.dropLast) raw b its
    else if b = [58] then
      match its with
      | v :: its => if v = [10] then stop else fieldValue x st a raw v its
      | [] => stop
    else stop
  | _ => stop

/-- One entry of parseMapEntries (parser.go 541-624). -/
def entryLine (x : Ext) (st : List Frame) (its : List Bytes) : Step :=
  match its with
  | a :: b :: v :: _ =>
    if !Str.hasPrefix [0x22] a then stop
    else match unquote a with
      | none => stop
      | some key =>
        if b ≠ [58] then stop
        else
          let v := trimLast 44 v
          if Str.hasPrefix [0x22] v then
            one ((unquote v).map fun s => { kind := .mapEntry, keyBytes := key, type := .string, bytes := s }) st
          else if v = lit "true" then one (some { kind := .mapEntry, keyBytes := key, type := .bool, data := 1 }) st
          else if v = lit "false" then one (some { kind := .mapEntry, keyBytes := key, type := .bool, data := 0 }) st
          else if isNumber v then
            if looksFloat v then
              one ((x.parseFloat v).map fun d => { kind := .mapEntry, keyBytes := key, type := .float64, data := d }) st
            else one ((atoi v).map fun n => { kind := .mapEntry, keyBytes := key, data := (Int64.ofInt n).toUInt64 }) st
          else if v = lit "{" then
            ([{ kind := .mapEntry, keyBytes := key, type := .struct }, { kind := .structStart }], some (.nested :: st))
          else one (some { kind := .mapEntry, keyBytes := key, isEnum := true, enumName := v, bytes := v }) st
  | _ => stop

/-- The end of a struct or map: `}` or `},` (parser.go 311, 533). -/
def closes (first : Bytes) : Bool := first == lit "}" || Str.hasPrefix (lit "},") first

/-- After a nested struct: what was left of the line in an array is read (parser.go 381-392, 431-441). -/
def resume (x : Ext) : List Frame → Step
  | .rest its :: st => elemsLine x st its
  | st => ([], some st)

/-- One line that is neither blank nor a comment, for the call that waits for it: parseFields (parser.go 54-85),
parseNestedStruct (296-323), parseArrayElements (401-447), parseMapEntries (518-626) and parseRawString (653-681). -/
def step (x : Ext) (raw : Bytes) : List Frame → Step
  | .root :: st =>
    if (items raw).headD [] = lit "}" then ([{ kind := .structEnd }], none) else fieldLine x (.root :: st) raw
  | .nested :: st =>
    if closes ((items raw).headD []) then before [{ kind := .structEnd }] (resume x st)
    else fieldLine x (.nested :: st) raw
  | .elems :: st => elemsLine x st (items raw)
  | .map :: st =>
    if closes ((items raw).headD []) then ([{ kind := .mapEnd }], some st) else entryLine x (.map :: st) (items raw)
  | .raw name acc :: st =>
    match Str.index [96] raw with
    | some i => one (some { kind := .field, name, type := .string, bytes := acc ++ [10] ++ raw.take i }) st
    | none => ([], some (.raw name (acc ++ [10] ++ raw) :: st))
  | _ => stop

/-- The end of the text: only parseFields is content with it (parser.go 63-69). -/
def atEnd : List Frame → List Token
  | .root :: _ => [{ kind := .structEnd }]
  | _ => []

/-- A multi-line raw string is being read: comments are not skipped. -/
def inRaw : List Frame → Bool
  | .raw _ _ :: _ => true
  | _ => false

/-- textToTokens (parser.go 21-29) with skipCommentsAndWhitespace (88-126): `com` tells that the line is within a
comment.  Lines without words are not handed out, not even within a raw string.  The error of the parser is dropped (`_ = halfpike.Parse(…)`): the stream just ends. -/
def run (x : Ext) (com : Bool) (st : List Frame) : List Bytes → List Token
  | [] => atEnd st
  | l :: ls =>
    if !inRaw st && com then run x (!Str.contains l (lit "*/")) st ls
    else if items l == [[10]] then run x false st ls
    else if !inRaw st && Str.hasPrefix (lit "//") ((items l).headD []) then run x false st ls
    else if !inRaw st && Str.hasPrefix (lit "/*") ((items l).headD []) then run x (!Str.contains l (lit "*/")) st ls
    else match step x l st with
      | (ts, some st') => ts ++ run x false st' ls
      | (ts, none) => ts

/-- The tokens of a text (parser.go 21-51). -/
def tokens (x : Ext) (text : Bytes) : List Token :=
  { kind := .structStart, name := lit "root" } :: run x false [.root] (lines text)

/-- Unmarshal (clawtext.go 95-126), into the struct `v`. -/
def unmarshal (x : Ext) (env : Env) (ignore : Bool) (s : Nat) (v : List Val) (text : Bytes) : Out (List Val) :=
  ingest env ignore s v (tokens x text)

end Claw.Text
