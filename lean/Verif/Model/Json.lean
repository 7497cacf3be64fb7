import Verif.Spec.JsonStr
import Verif.Model.Token

/-!
# JSON: `Marshal` and `Unmarshal`

`/repo/languages/go/clawjson/clawjson.go`.

Simplifications.
* Text is a list of lexemes.  A string lexeme stands for its value (`repaired`); what is written for it, and that it
  is read back, is the subject of `Verif.Props.JsonStr`.  Neither writer nor reader looks at white space.
* The text of a float is not spelled out: `Num.float` stands for what `strconv.AppendFloat` writes.  Its
  integer part is given for magnitudes below 2^53 (2^24 for float32), where the shortest decimal that
  rounds to a float has the same integer part as the float; beyond, it is a parameter.
* The decoder of `github.com/go-json-experiment/json/jsontext` is modelled after its documentation:
  it delivers tokens until the text stops being JSON, rejects a name that occurs twice in an object,
  and allows several values after each other at the top level.  Its limit on nesting is left out.
* Looking up and decoding an Any is a parameter.
* Errors of the `io.Writer` are left out.  An error for a field type is an error of the whole call.
-/

namespace Claw.Json

open Claw.Idl (FT Out)
open Claw.Tok

/-- A number in the text. -/
inductive Num where
  | int (n : Int)
  | float (t : FT) (d : UInt64)
  deriving DecidableEq, Repr

/-- The lexemes of JSON. -/
inductive Lex where
  | lbrace | rbrace | lbrack | rbrack | comma | colon
  | str (b : Bytes)
  | num (n : Num)
  | tru | fls | null
  deriving DecidableEq, Repr

/-! ### Encodings of bytes -/

/-- The alphabet of `base64.StdEncoding`. -/
def b64char (n : Nat) : UInt8 :=
  if n < 26 then (65 + n).toUInt8
  else if n < 52 then (97 + (n - 26)).toUInt8
  else if n < 62 then (48 + (n - 52)).toUInt8
  else if n = 62 then 0x2B
  else 0x2F

/-- `base64.StdEncoding.AppendEncode`. -/
def base64 : Bytes → Bytes
  | [] => []
  | [a] => [b64char (a.toNat / 4), b64char (a.toNat % 4 * 16), 0x3D, 0x3D]
  | [a, b] => [b64char (a.toNat / 4), b64char (a.toNat % 4 * 16 + b.toNat / 16),
      b64char (b.toNat % 16 * 4), 0x3D]
  | a :: b :: c :: r => b64char (a.toNat / 4) :: b64char (a.toNat % 4 * 16 + b.toNat / 16) ::
      b64char (b.toNat % 16 * 4 + c.toNat / 64) :: b64char (c.toNat % 64) :: base64 r

/-- appendHex (clawjson.go 559-564). -/
def hexOf (b : Bytes) : Bytes := b.flatMap fun x => [hexDigit (x.toNat / 16), hexDigit (x.toNat % 16)]

/-! ### Writing -/

/-- `math.IsInf` or `math.IsNaN`: all bits of the exponent are set. -/
def special (t : FT) (d : UInt64) : Bool :=
  match t with
  | .float32 => d.toUInt32.toNat % 2 ^ 31 / 2 ^ 23 == 255
  | _ => d.toNat % 2 ^ 63 / 2 ^ 52 == 2047

/-- writeValue (clawjson.go 275-502).  `anyLex` is its part for Any (283-389). -/
def valueLex (useNums : Bool) (anyLex : Bytes → Bytes → Out (List Lex)) (tok : Token) : Out (List Lex) :=
  if tok.isNil then .ok [.null]
  else match tok.type with
    | .struct | .listStructs | .listBools | .listInt8 | .listInt16 | .listInt32 | .listInt64
    | .listUint8 | .listUint16 | .listUint32 | .listUint64 | .listFloat32 | .listFloat64
    | .listBytes | .listStrings | .listAny | .map => .ok []
    | .any => anyLex tok.typeHash tok.bytes
    | t =>
      if tok.isEnum then
        if useNums && (t == .uint8 || t == .uint16) then .ok [.num (.int (norm t tok.data).toNat)]
        else .ok [.str (repaired tok.enumName)]
      else match t with
        | .bool => .ok [if tok.data ≠ 0 then .tru else .fls]
        | .int8 | .int16 | .int32 | .int64 => .ok [.num (.int (norm t tok.data).toInt64.toInt)]
        | .uint8 | .uint16 | .uint32 | .uint64 => .ok [.num (.int (norm t tok.data).toNat)]
        | .float32 | .float64 =>
          if special t tok.data then .ok [.null] else .ok [.num (.float t (norm t tok.data))]
        | .string => .ok [.str (repaired tok.bytes)]
        | .bytes => .ok [.str (base64 tok.bytes)]
        | _ => .err

/-- A comma unless it is the first of its kind (clawjson.go 208-216, 242-250). -/
def sep : List Bool → List Lex
  | false :: _ => [.comma]
  | _ => []

/-- `state.firstStack[len-1] = false`. -/
def notFirst : List Bool → List Bool
  | _ :: st => false :: st
  | [] => []

/-- Text before the rest of the text. -/
def prepend (ls : List Lex) : Out (List Lex) → Out (List Lex)
  | .ok r => .ok (ls ++ r)
  | .err => .err
  | .panic => .panic

/-- writeJSON (clawjson.go 147-271): the stack tells for every open brace or bracket whether nothing was
written after it yet. -/
def write (useNums : Bool) (anyLex : Bytes → Bytes → Out (List Lex)) : List Bool → List Token → Out (List Lex)
  | _, [] => .ok []
  | st, tok :: ts =>
    match tok.kind with
    | .structStart => prepend [.lbrace] (write useNums anyLex (true :: st) ts)
    | .structEnd => prepend [.rbrace] (write useNums anyLex st.tail ts)
    | .listStart => prepend [.lbrack] (write useNums anyLex (true :: st) ts)
    | .listEnd => prepend [.rbrack] (write useNums anyLex st.tail ts)
    | .mapStart => prepend [.lbrace] (write useNums anyLex (true :: st) ts)
    | .mapEnd => prepend [.rbrace] (write useNums anyLex st.tail ts)
    | .mapEntry =>
      match valueLex useNums anyLex { tok with type := tok.valueType } with
      | .ok v => prepend (sep st ++ [.str (repaired tok.keyBytes), .colon] ++ v)
          (write useNums anyLex (notFirst st) ts)
      | .err => .err
      | .panic => .panic
    | .field =>
      match valueLex useNums anyLex tok with
      | .ok v => prepend (sep st ++ (if tok.name ≠ [] then [.str (repaired tok.name), .colon] else []) ++ v)
          (write useNums anyLex (notFirst st) ts)
      | .err => .err
      | .panic => .panic

/-- An Any that cannot be decoded (clawjson.go 298-317, 325-343). -/
def fallback (hash data : Bytes) : List Lex :=
  [.lbrace, .str (lit "@type"), .colon, .str (hexOf hash), .comma, .str (lit "@value"), .colon,
    .str (base64 data), .rbrace]

/-- An Any that was decoded and written (clawjson.go 352-388).  The name of the type, which the code
writes as it is, is taken to be free of quotes, backslashes and control characters. -/
def inject (hash : Bytes) (name : Str) : List Lex → List Lex
  | .lbrace :: rest =>
    if rest = [] then [.lbrace]
    else [.lbrace, .str (lit "@type"), .colon, .str (hexOf hash), .comma, .str (lit "@fieldType"), .colon, .str name] ++
      (if rest = [.rbrace] then [] else [.comma]) ++ rest
  | ls => ls

/-- The registered types, and the decoding of the bytes of an Any: the struct type, the fields and the
name of the type. -/
abbrev AnyDec := Bytes → Bytes → Option (Nat × List Val × Str)

/-- The part of writeValue for Any (clawjson.go 290-389).  The number bounds the depth of Any within Any:
at its end the text is that of an Any that cannot be decoded. -/
def anyLex (env : Env) (useNums : Bool) (dec : AnyDec) : Nat → Bytes → Bytes → Out (List Lex)
  | 0, hash, data => .ok (fallback hash data)
  | n + 1, hash, data =>
    match dec hash data with
    | none => .ok (fallback hash data)
    | some (s, fs, name) =>
      match write useNums (anyLex env useNums dec n) [] (walk env s (.obj fs)) with
      | .ok ls => .ok (inject hash name ls)
      | .err => .err
      | .panic => .panic

/-- Marshal (clawjson.go 128-145). -/
def marshal (env : Env) (useNums : Bool) (dec : AnyDec) (n : Nat) (s : Nat) (fs : List Val) : Out (List Lex) :=
  write useNums (anyLex env useNums dec n) [] (walk env s (.obj fs))

/-! ### Reading -/

/-- What the decoder expects next inside an object or array. -/
inductive Lv where
  | objKey (names : List Bytes) (first : Bool)
  | objColon (names : List Bytes)
  | objVal (names : List Bytes)
  | objNext (names : List Bytes)
  | arrVal (first : Bool)
  | arrNext
  deriving DecidableEq, Repr

/-- A value may come. -/
def canValue : List Lv → Bool
  | [] => true
  | .objVal _ :: _ => true
  | .arrVal _ :: _ => true
  | _ => false

/-- After a value. -/
def done : List Lv → List Lv
  | .objVal ns :: r => .objNext ns :: r
  | .arrVal _ :: r => .arrNext :: r
  | r => r

/-- The tokens that `jsontext.Decoder.ReadToken` delivers before its first error. -/
def decode : List Lv → List Lex → List Lex
  | _, [] => []
  | lv, l :: ls =>
    match l with
    | .comma => match lv with
      | .objNext ns :: r => decode (.objKey ns false :: r) ls
      | .arrNext :: r => decode (.arrVal false :: r) ls
      | _ => []
    | .colon => match lv with
      | .objColon ns :: r => decode (.objVal ns :: r) ls
      | _ => []
    | .lbrace => if canValue lv then .lbrace :: decode (.objKey [] true :: lv) ls else []
    | .rbrace => match lv with
      | .objKey _ true :: r => .rbrace :: decode (done r) ls
      | .objNext _ :: r => .rbrace :: decode (done r) ls
      | _ => []
    | .lbrack => if canValue lv then .lbrack :: decode (.arrVal true :: lv) ls else []
    | .rbrack => match lv with
      | .arrVal true :: r => .rbrack :: decode (done r) ls
      | .arrNext :: r => .rbrack :: decode (done r) ls
      | _ => []
    | .str b => match lv with
      | .objKey ns _ :: r => if b ∈ ns then [] else .str b :: decode (.objColon (b :: ns) :: r) ls
      | _ => if canValue lv then .str b :: decode (done lv) ls else []
    | .num n => if canValue lv then .num n :: decode (done lv) ls else []
    | .tru => if canValue lv then .tru :: decode (done lv) ls else []
    | .fls => if canValue lv then .fls :: decode (done lv) ls else []
    | .null => if canValue lv then .null :: decode (done lv) ls else []

/-- The integer part of the text of a float: see the head of the file. -/
def floatInt (big : FT → UInt64 → Int) (t : FT) (d : UInt64) : Int :=
  match t with
  | .float32 =>
    let v := F32.value ⟨d.toUInt32⟩
    if v.natAbs < 2 ^ 24 * 2 ^ 149 then v.tdiv (2 ^ 149) else big t d
  | _ =>
    let v := F64.value ⟨d⟩
    if v.natAbs < 2 ^ 53 * 2 ^ 1074 then v.tdiv (2 ^ 1074) else big t d

/-- The next int64 to a number. -/
def clamp (n : Int) : Int := if n < -(2 ^ 63) then -(2 ^ 63) else if 2 ^ 63 ≤ n then 2 ^ 63 - 1 else n

/-- `jsontext.Token.Int` and `Token.SetInt64` (clawjson.go 825): the fraction is dropped and what does not
fit becomes the nearest int64. -/
def intBits (big : FT → UInt64 → Int) : Num → UInt64
  | .int n => (Int64.ofInt (clamp n)).toUInt64
  | .float t d => (Int64.ofInt (clamp (floatInt big t d))).toUInt64

/-- `setExpectKey(true)`. -/
def setKey : List (Bool × Bool) → List (Bool × Bool)
  | (o, _) :: st => (o, true) :: st
  | [] => []

/-- jsonToTokens (clawjson.go 691-870): `contextStack` and `expectKeyStack` side by side, and
`currentName`. -/
def toToks (big : FT → UInt64 → Int) : List (Bool × Bool) → Str → List Lex → List Token
  | _, _, [] => []
  | st, nm, l :: ls =>
    match l with
    | .lbrace => (if nm ≠ [] then [{ kind := .field, name := nm, type := .struct }] else []) ++
        { kind := .structStart, name := if nm = [] then lit "root" else nm } :: toToks big ((true, true) :: st) [] ls
    | .rbrace => { kind := .structEnd } :: toToks big (setKey st.tail) nm ls
    | .lbrack => (if nm ≠ [] then [{ kind := .field, name := nm }] else []) ++
        { kind := .listStart } :: toToks big ((false, false) :: st) [] ls
    | .rbrack => { kind := .listEnd } :: toToks big (setKey st.tail) nm ls
    | .str b => match st with
      | (true, true) :: r => toToks big ((true, false) :: r) b ls
      | _ => { kind := .field, name := nm, type := .string, bytes := b } :: toToks big (setKey st) [] ls
    | .num n => { kind := .field, name := nm, data := intBits big n } :: toToks big (setKey st) [] ls
    | .tru => { kind := .field, name := nm, type := .bool, data := 1 } :: toToks big (setKey st) [] ls
    | .fls => { kind := .field, name := nm, type := .bool, data := 0 } :: toToks big (setKey st) [] ls
    | .null => { kind := .field, name := nm, isNil := true } :: toToks big (setKey st) [] ls
    | .comma => toToks big st nm ls
    | .colon => toToks big st nm ls

/-- Unmarshal (clawjson.go 661-688), into the struct `x`. -/
def unmarshal (big : FT → UInt64 → Int) (env : Env) (ignore : Bool) (s : Nat) (x : List Val) (ls : List Lex) :
    Out (List Val) :=
  ingest env ignore s x (toToks big [] [] (decode [] ls))

/-! ### Arrays -/

/-- Array (clawjson.go 583-645): `Write` for every struct, then `Close`. -/
def arrayLex (env : Env) (useNums : Bool) (dec : AnyDec) (n : Nat) : Bool → List (Nat × List Val) → Out (List Lex)
  | false, [] => .ok [.lbrack, .rbrack]
  | true, [] => .ok [.rbrack]
  | written, (s, fs) :: l =>
    match marshal env useNums dec n s fs with
    | .ok ls => prepend ((if written then [.comma] else [.lbrack]) ++ ls) (arrayLex env useNums dec n true l)
    | .err => .err
    | .panic => .panic

end Claw.Json
