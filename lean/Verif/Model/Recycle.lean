import Verif.Model.Bytes

/-!
# Pooled buffers and the messages read from them

`pack.Pack` and `pack.Unpack` work in buffers of a pool that all connections of the process share (languages/go/pack/pack.go:66-74).
The client's reader copies the unpacked bytes into the message (client.go:635-645), the server's reader lets the message be a view of
them (conn.go:193-202, `Unmarshal` keeps the slice it is given, segment/struct.go:426-448) and gives the buffer back when it returns.

Simplified: a buffer is its array, a list of bytes as long as its capacity, and an array is known by its number; a buffer whose array is
too small gets a new one, and the old array is then known only to the messages that view it (pack.go:107-111, 212-216). Of a message only its
bytes are kept. The pool gives out any of its buffers or a new one (sync.Pool).
-/

namespace Claw.Recycle

/-- A message somebody still holds: `sent` is what it was when it was read from the connection (no effect on the machine). -/
inductive Msg where
  | owned (bytes sent : Bytes)
  | view (arr n : Nat) (sent : Bytes)
  deriving DecidableEq, Repr

def Msg.sent : Msg → Bytes
  | .owned _ s => s
  | .view _ _ s => s

/-- A buffer that is out of the pool: its array and what was packed or unpacked into it. -/
structure Held where
  arr : Nat
  content : Bytes
  deriving DecidableEq, Repr

structure State where
  mem : List Bytes
  free : List Nat
  held : List Held
  msgs : List Msg
  /-- what was written to transports, with what should have been -/
  wire : List (Bytes × Bytes)
  deriving DecidableEq, Repr

def init : State := ⟨[], [], [], [], []⟩

def poolCap : Nat := 4096

inductive Act where
  /-- `bufferPool.Get` and writing `content` (pack.go:104-128, 209-230): `pick` is the array of a pooled buffer or none of them, `need` the
  capacity asked for (`Pack` asks for more than it writes) -/
  | take (pick : Option Nat) (content : Bytes) (need : Nat)
  /-- the server's reader: `msg.Unmarshal(unpacked.Bytes())` (conn.go:202) -/
  | unmarshal (h : Held)
  /-- the client's reader: `msg.UnmarshalReader` of the unpacked bytes (client.go:641-645) -/
  | copy (h : Held)
  /-- a sender: `transport.Write(packed.Bytes())` (conn.go:626, client.go:790) -/
  | write (h : Held)
  /-- `Release` (pack.go:53-58) -/
  | put (h : Held)
  deriving DecidableEq, Repr

/-- Writes `content` over the beginning of an array. -/
def over (old content : Bytes) : Bytes := content ++ old.drop content.length

/-- The first `n` bytes of an array. -/
def State.bytes (s : State) (a n : Nat) : Bytes := (s.mem.getD a []).take n

/-- A new array, zeroed. -/
def State.fresh (s : State) (content : Bytes) (cap : Nat) : State :=
  { s with mem := s.mem ++ [over (zeros cap) content], held := s.held ++ [⟨s.mem.length, content⟩] }

def step (s : State) : Act → Option State
  | .take none content need => if content.length ≤ need then some (s.fresh content (max poolCap need)) else none
  | .take (some a) content need =>
    if a ∈ s.free ∧ content.length ≤ need then
      let s := { s with free := s.free.erase a }
      if (s.mem.getD a []).length < need then some (s.fresh content need)
      else some { s with mem := s.mem.set a (over (s.mem.getD a []) content), held := s.held ++ [⟨a, content⟩] }
    else none
  | .unmarshal h => if h ∈ s.held then some { s with msgs := s.msgs ++ [.view h.arr h.content.length h.content] } else none
  | .copy h => if h ∈ s.held then some { s with msgs := s.msgs ++ [.owned (s.bytes h.arr h.content.length) h.content] } else none
  | .write h => if h ∈ s.held then some { s with wire := s.wire ++ [(s.bytes h.arr h.content.length, h.content)] } else none
  | .put h => if h ∈ s.held then some { s with held := s.held.erase h, free := h.arr :: s.free } else none

def run : List Act → State → Option State
  | [], s => some s
  | a :: as, s => (step s a).bind (run as)

/-- What the holder of a message reads in it now. -/
def State.read (s : State) : Msg → Bytes
  | .owned b _ => b
  | .view a n _ => s.bytes a n

end Claw.Recycle
