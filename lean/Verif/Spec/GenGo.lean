import Verif.Model.GenGo

/-!
# What Go asks of the names of a package

Written from the Go specification ("Declarations and scope", "Method declarations", "Package initialization"): a name is
declared once in the package block, a method once for its type; the receiver of a method is a type of the package; a name
that is used is declared; and no variable of the package depends on itself through the initialisers.
-/

namespace Claw.GenGo

open Claw.Idl

/-- No name is declared twice in its scope. -/
def GoPkg.DeclaredOnce (p : GoPkg) : Prop := p.decls.Nodup

/-- The receivers of methods are declared. -/
def GoPkg.ReceiversDeclared (p : GoPkg) : Prop := ∀ d ∈ p.decls, ∀ t, d.recv = some t → ⟨none, t⟩ ∈ p.decls

/-- What initialisers refer to is declared. -/
def GoPkg.RefsDeclared (p : GoPkg) : Prop := ∀ v ∈ p.vars, ∀ r ∈ v.2, ⟨none, r⟩ ∈ p.decls

/-- The initialiser of variable `a` refers to `b`. -/
def GoPkg.Refers (p : GoPkg) (a b : Str) : Prop := ∃ refs, (a, refs) ∈ p.vars ∧ b ∈ refs

/-- No variable depends on itself. -/
def GoPkg.NoInitCycle (p : GoPkg) : Prop := ∀ a, ¬ Relation.TransGen p.Refers a a

/-- What a Go compiler asks of the names. -/
structure GoPkg.Valid (p : GoPkg) : Prop where
  once : p.DeclaredOnce
  receivers : p.ReceiversDeclared
  refs : p.RefsDeclared
  acyclic : p.NoInitCycle

/-! ## Schemas -/

/-- The field is of the struct type `b` of the same schema, or a list of such, or a map with such values. -/
def HasStruct (f : Field) (b : Str) : Prop :=
  ((f.type = .struct ∨ f.type = .listStructs) ∧ f.identName = b ∧ (46 : UInt8) ∉ b) ∨
    (f.type = .map ∧ b ≠ [] ∧ ∃ k v, f.map = some (.flat k v b))

/-- Struct `a` has a field that holds `b`. -/
def Holds (structs : List (Str × List Field)) (a b : Str) : Prop := ∃ fs, (a, fs) ∈ structs ∧ ∃ f ∈ fs, HasStruct f b

/-- No struct holds itself, directly or through others. -/
def NotRecursive (structs : List (Str × List Field)) : Prop := ∀ a, ¬ Relation.TransGen (Holds structs) a a

/-- A name that, with the given affixes put on it, cannot be taken for another such name: it is not empty, does not begin
with one of the prefixes or end with one of the suffixes, and gives none of the reserved names. -/
structure Free (pres sufs : List String) (reserved : List Str) (n : Str) : Prop where
  ne : n ≠ []
  pre : ∀ p ∈ pres, ¬ lit p <+: n
  suf : ∀ s ∈ sufs, ¬ lit s <:+ n
  reserved : ∀ p ∈ "" :: pres, ∀ s ∈ "" :: sufs, lit p ++ (n ++ lit s) ∉ reserved

/-- The names of fields that are safe: not `SetX`, `IsSetX`, `XLen` and so on, and none that gives one of the methods
every struct has. -/
def FreeField (n : Str) : Prop :=
  Free ["Set", "IsSet", "SafeGet"]
    ["List", "Len", "Get", "Append", "AppendRaw", "Map", "Set", "GetRaw", "ListLen", "Delete", "Has", "Raw"]
    [lit "Release", lit "Marshal", lit "MarshalSafe", lit "MarshalWriter", lit "Unmarshal", lit "UnmarshalReader",
     lit "ClawStruct", lit "XXXGetStruct", lit "XXXTypeHash", lit "SetRecording", lit "Recording", lit "DrainRecordedOps",
     lit "RecordedOpsLen", lit "ToRaw", lit "XXXDescr", lit "Walk", lit "Ingest", lit "XXXIngestFrom"] n

/-- The names of structs, enums and enumerators that are safe: not `NewX`, `XRaw` and so on, and none that gives one of
the names every package has. -/
def FreeName (n : Str) : Prop :=
  Free ["New", "XXXNew", "XXXTypeHash", "XXXMapping", "XXXStructDescr", "XXXEnumGroup"]
    ["From", "Raw", "FromRaw", "ByName", "ByValue"]
    [lit "SyntaxVersion", lit "_package", lit "_packagePath", lit "XXXStructDescrs", lit "XXXPackageDescr",
     lit "PackageDescr", lit "XXXEnumGroups"] n

end Claw.GenGo
