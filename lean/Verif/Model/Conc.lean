import Verif.Model.Struct

/-!
# Goroutines that read the same decoded struct

`/repo/clawc/languages/go/segment`: a decoded struct is indexed when a field is read for the first time (struct.go:494-518,
bytes.go:206-295), and its lists are parsed and kept in a map when they are read for the first time (getters.go:15-250, struct.go:271-292).
No lock is held.

The getters of single values, strings, bytes and nested structs read the position and the size of the field in the index and then the
bytes of the message, which readers do not change; so the model of a getter is `FieldOffset`.
-/

namespace Claw.Conc

open Claw

/-! ### The index -/

/-- bytes.go:214-294: what `parseFieldIndex` writes into the index, in order. Follows `parseFuel`. -/
def entriesFuel : Nat → Nat → Bytes → Res (List (Nat × Entry))
  | 0, _, _ => .ok []
  | fuel + 1, pos, rest =>
    if HeaderSize ≤ rest.length then
      match decodeHeader rest with
      | none => .ok []
      | some (fieldNum, fieldType, final40) =>
        if fieldType = 0 then .ok []
        else
          let fieldSize := fieldSizeAt rest fieldType final40
          if fieldSize = 0 then .hang
          else do
            let es ← entriesFuel fuel (pos + fieldSize) (rest.drop fieldSize)
            .ok ((fieldNum, ⟨pos % 2 ^ 32, fieldSize % 2 ^ 32, true⟩) :: es)
    else .ok []

/-- The entries of a message. -/
def entries (data : Bytes) : Res (List (Nat × Entry)) := entriesFuel (data.drop HeaderSize).length HeaderSize (data.drop HeaderSize)

/-- The words of a struct that `FieldOffset` reads or writes: `fieldIndexParsed` (0 is false), and offset and size of each entry of
`fieldIndex`. -/
inductive Word where
  | flag
  | off (f : Nat)
  | size (f : Nat)
  deriving DecidableEq, Repr

/-- The stores of `ensureFieldIndexParsed` when the index has `m` entries and the message has the entries `es`. -/
def stores (m : Nat) (es : List (Nat × Entry)) : List (Word × Nat) :=
  (es.flatMap fun e => if e.1 < m then [(.off e.1, e.2.offset), (.size e.1, e.2.size)] else []) ++ [(.flag, 1)]

/-- Where a goroutine is. -/
inductive Pc where
  /-- in no getter -/
  | idle
  /-- `FieldOffset` of this field, about to read the flag (struct.go:495) -/
  | check (f : Nat)
  /-- about to do these stores (bytes.go:286-290, struct.go:497) -/
  | fill (f : Nat) (todo : List (Word × Nat))
  /-- about to read the entry (struct.go:516) -/
  | readOff (f : Nat)
  | readSize (f o : Nat)
  deriving DecidableEq, Repr

/-- A goroutine: what its getters have found so far, as field, offset and size; for each word the latest value it has read or written. -/
structure Gor where
  pc : Pc := .idle
  seen : Word → Nat := fun _ => 0
  out : List (Nat × Nat × Nat) := []

/-- All values that each word had, the oldest first, and the goroutines. -/
structure State where
  mem : Word → List Nat
  gs : Nat → Gor

inductive Act where
  /-- goroutine `i` calls a getter of field `f` -/
  | call (i f : Nat)
  /-- reads the flag; `p` is which of its values it gets -/
  | look (i p : Nat)
  /-- the next store -/
  | store (i : Nat)
  /-- has done all stores -/
  | filled (i : Nat)
  /-- reads the entry -/
  | off (i p : Nat)
  | size (i p : Nat)
  deriving DecidableEq, Repr

def State.set (s : State) (i : Nat) (g : Gor) : State := { s with gs := fun j => if j = i then g else s.gs j }

/-- Which values a read may give. Where nothing orders a read and a write of another goroutine, the memory model of Go lets the read give
the value before or after the write, independently for each word; here a goroutine at least never goes back behind a value of a word that
it has read or written. `sc`: only the latest value is given, as if all accesses happened one after the other. -/
def read (sc : Bool) (s : State) (g : Gor) (x : Word) (p : Nat) : Option Nat :=
  if g.seen x ≤ p ∧ (sc = true → p + 1 = (s.mem x).length) then (s.mem x)[p]? else none

/-- After the index is there: struct.go:513-516. -/
def afterEnsure (m : Nat) (g : Gor) (f : Nat) : Gor :=
  if f < m then { g with pc := .readOff f } else { g with pc := .idle, out := g.out ++ [(f, 0, 0)] }

def note (g : Gor) (x : Word) (p : Nat) : Gor := { g with seen := fun y => if y = x then p else g.seen y }

/-- One step of one goroutine; `m` is the number of fields of the mapping, `w` the stores that indexing does. -/
def step (sc : Bool) (m : Nat) (w : List (Word × Nat)) (s : State) : Act → Option State
  | .call i f => if (s.gs i).pc = .idle then some (s.set i { s.gs i with pc := .check f }) else none
  | .look i p =>
    match (s.gs i).pc with
    | .check f =>
      match read sc s (s.gs i) .flag p with
      | none => none
      | some 0 => some (s.set i { note (s.gs i) .flag p with pc := .fill f w })
      | some (_ + 1) => some (s.set i (afterEnsure m (note (s.gs i) .flag p) f))
    | _ => none
  | .store i =>
    match (s.gs i).pc with
    | .fill f ((x, v) :: todo) =>
      some (({ s with mem := fun y => if y = x then s.mem x ++ [v] else s.mem y } : State).set i
        { note (s.gs i) x (s.mem x).length with pc := .fill f todo })
    | _ => none
  | .filled i =>
    match (s.gs i).pc with
    | .fill f [] => some (s.set i (afterEnsure m (s.gs i) f))
    | _ => none
  | .off i p =>
    match (s.gs i).pc with
    | .readOff f =>
      match read sc s (s.gs i) (.off f) p with
      | none => none
      | some o => some (s.set i { note (s.gs i) (.off f) p with pc := .readSize f o })
    | _ => none
  | .size i p =>
    match (s.gs i).pc with
    | .readSize f o =>
      match read sc s (s.gs i) (.size f) p with
      | none => none
      | some v => some (s.set i { note (s.gs i) (.size f) p with pc := .idle, out := (s.gs i).out ++ [(f, o, v)] })
    | _ => none

def run (sc : Bool) (m : Nat) (w : List (Word × Nat)) : List Act → State → Option State
  | [], s => some s
  | a :: as, s => (step sc m w s a).bind (run sc m w as)

/-- The struct when the goroutines start: what was done before is known to all. -/
def init (s : St) : State where
  mem
    | .flag => [if s.parsed then 1 else 0]
    | .off f => [(s.idx.getD f .zero).offset]
    | .size f => [(s.idx.getD f .zero).size]
  gs := fun _ => {}

/-! ### The map of lists -/

/-- Where a goroutine is in a getter of a list (getters.go:15-54 and the others there; struct.go:279-292). -/
inductive LPc where
  | idle
  /-- `GetList` -/
  | lookup (f : Nat)
  /-- parses the list -/
  | parse (f : Nat)
  /-- `SetList`, struct.go:288-290: is there a map? -/
  | makeMap (f obj : Nat)
  /-- struct.go:291: takes the map -/
  | assign (f obj : Nat)
  /-- within the write to map `m` -/
  | writing (f m obj : Nat)
  deriving DecidableEq, Repr

/-- `ptr` is `s.lists`; maps and list objects have numbers. `busy` is the mark that the runtime of Go sets on a map during a write; a read
or write that finds it set ends the program ("concurrent map read and map write", "concurrent map writes"). -/
structure LState where
  ptr : Option Nat := none
  maps : Nat → Nat → Option Nat := fun _ _ => none
  busy : Nat → Bool := fun _ => false
  nextMap : Nat := 0
  nextObj : Nat := 0
  pc : Nat → LPc := fun _ => .idle
  out : List (Nat × Nat × Nat) := []
  fatal : Bool := false

inductive LAct where
  /-- goroutine `i` asks for the list `f` -/
  | call (i f : Nat)
  /-- its next step -/
  | next (i : Nat)
  deriving DecidableEq, Repr

def LState.at (s : LState) (i : Nat) (p : LPc) : LState := { s with pc := fun j => if j = i then p else s.pc j }

/-- One step of one goroutine, all accesses one after the other. The field is in the message, and the index is there. In `out`: goroutine,
field, list object. -/
def lstep (s : LState) : LAct → Option LState
  | .call i f => if s.fatal = false ∧ s.pc i = .idle then some (s.at i (.lookup f)) else none
  | .next i =>
    if s.fatal then none
    else match s.pc i with
    | .idle => none
    | .lookup f =>
      match s.ptr with
      | none => some (s.at i (.parse f))
      | some m =>
        if s.busy m then some { s with fatal := true }
        else match s.maps m f with
          | some obj => some { s.at i .idle with out := s.out ++ [(i, f, obj)] }
          | none => some (s.at i (.parse f))
    | .parse f => some { s.at i (.makeMap f s.nextObj) with nextObj := s.nextObj + 1 }
    | .makeMap f obj =>
      match s.ptr with
      | none => some { s.at i (.assign f obj) with ptr := some s.nextMap, nextMap := s.nextMap + 1 }
      | some _ => some (s.at i (.assign f obj))
    | .assign f obj =>
      match s.ptr with
      | none => none
      | some m =>
        if s.busy m then some { s with fatal := true }
        else some { s.at i (.writing f m obj) with busy := fun k => if k = m then true else s.busy k }
    | .writing f m obj =>
      some { s.at i .idle with
        busy := fun k => if k = m then false else s.busy k
        maps := fun k g => if k = m ∧ g = f then some obj else s.maps k g
        out := s.out ++ [(i, f, obj)] }

def lrun : List LAct → LState → Option LState
  | [], s => some s
  | a :: as, s => (lstep s a).bind (lrun as)

end Claw.Conc
