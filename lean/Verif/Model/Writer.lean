import Verif.Model.Vendor

/-!
# Writing what was generated

Model of `/repo/clawc/internal/writer/golang/golang.go` (WriteFiles and goErrors) for any number of packages, each of which has its
own goroutine, and of what `/repo/clawc/internal/render/golang/golang.go` gives it to write.

Simplifications.
* `getImports`, which runs `go get` before anything is written, is left out; so is the log.
* `filepath.Join(p, name)` is `p`, a slash and `name`: both are clean and `p` is not the root directory.
* Go is the only language (writer.go 20-22), so Writer.Write (writer.go 85-130) returns what WriteFiles returns.
-/

namespace Claw.Writer

/-- render.Rendered (render.go 42-56). The order of a map is arbitrary, see `step`. -/
structure Rendered where
  pkg : Str
  path : Str
  native : Bytes
  files : List (Str × Bytes)
  deriving DecidableEq, Repr

/-- What is rendered for a package (render.go 98-122, golang.go 65-99): two files more if it has structs. -/
def rendered (pkg path : Str) (native : Bytes) (structs : Bool) (iter ingest : Bytes) : Rendered :=
  ⟨pkg, path, native, if structs then [(lit "clawiter.go", iter), (lit "clawingest.go", ingest)] else []⟩

/-- imports.ConfigProvider (imports.go 745-751) as far as it is used. -/
structure Cfg where
  should : Str → Bool
  abs : Str → Option Str

/-- filepath.Join, which leaves out empty parts. -/
def join (dir name : Str) : Str := if name = [] then dir else dir ++ lit "/" ++ name

/-- Where a goroutine is: before line 46, before line 54, in the loop of line 59 with files left, or returned. -/
inductive Pc where
  | start
  | main (dir : Str)
  | extra (dir : Str) (left : List (Str × Bytes))
  | done
  deriving DecidableEq, Repr

/-- How WriteFile of the file system ends; if it fails the file may have something in it. -/
inductive Wr where
  | ok
  | fails (left : Option Bytes)
  deriving DecidableEq, Repr

/-- The files, the goroutines and the channel of goErrors (golang.go 154-160), which keeps one error: that of goroutine `i`. -/
structure St where
  fs : Dict Str Bytes
  pcs : List Pc
  err : Option Nat

/-- Goroutine `i` goes on; `pick` chooses among the files left, as the order of a map is arbitrary. -/
structure Act where
  i : Nat
  pick : Nat := 0
  w : Wr := .ok
  deriving DecidableEq, Repr

def St.at (s : St) (i : Nat) (pc : Pc) : St := { s with pcs := s.pcs.set i pc }

/-- goErrors.add (golang.go 162-167), and return. -/
def St.fail (s : St) (i : Nat) : St := { s with err := s.err.or (some i) }.at i .done

/-- A call of WriteFile and what follows (golang.go 54-57 and 61-64). -/
def St.write (s : St) (i : Nat) (f : Str) (c : Bytes) (w : Wr) (next : Pc) : St :=
  match w with
  | .ok => { s with fs := s.fs.set f c }.at i next
  | .fails none => s.fail i
  | .fails (some junk) => { s with fs := s.fs.set f junk }.fail i

/-- One action of a goroutine (golang.go 44-67); `none` if it cannot happen. -/
def St.step (cfg : Cfg) (rs : List Rendered) (s : St) (a : Act) : Option St :=
  match rs[a.i]?, s.pcs[a.i]? with
  | some r, some .start =>
    if a.w ≠ .ok then none
    else if cfg.should r.path then
      match cfg.abs r.path with
      | none => some (s.fail a.i)
      | some d => some (s.at a.i (.main d))
    else some (s.at a.i .done)
  | some r, some (.main d) => some (s.write a.i (join d (r.pkg ++ lit ".go")) r.native a.w (.extra d r.files))
  | some _, some (.extra _ []) => if a.w ≠ .ok then none else some (s.at a.i .done)
  | some _, some (.extra d (x :: left)) =>
    match (x :: left)[a.pick]? with
    | none => none
    | some (n, c) => some (s.write a.i (join d n) c a.w (.extra d ((x :: left).eraseIdx a.pick)))
  | _, _ => none

def St.run (cfg : Cfg) (rs : List Rendered) (s : St) : List Act → Option St
  | [] => some s
  | a :: as => match s.step cfg rs a with
    | none => none
    | some s' => s'.run cfg rs as

/-- Before line 39, with the files there are. -/
def St.init (fs : Dict Str Bytes) (rs : List Rendered) : St := ⟨fs, rs.map fun _ => .start, none⟩

/-- wg.Wait returns (golang.go 69); `err` is what WriteFiles returns (golang.go 72 and 169-176). -/
def St.finished (s : St) : Prop := ∀ pc ∈ s.pcs, pc = .done

/-- Config (imports.go 118-130 and 157-162) in a git repository. -/
def plainCfg (origin root : Str) : Cfg :=
  ⟨Vendor.inRepo origin, fun p => some (join root (Vendor.absRel origin p))⟩

/-- VendoredConfig (imports.go 524-533 and 551-553) in a git repository. -/
def vendoredCfg (origin root vendorDir : Str) : Cfg :=
  ⟨fun _ => true, fun p => some (if Vendor.inRepo origin p then join root (Vendor.absRel origin p) else join vendorDir p)⟩

end Claw.Writer
