import Verif.Lemmas.Base64
import Verif.Props.JsonBack

/-!
# C80: bytes and Any values in JSON
-/

namespace Claw.Json

open Claw.Idl (FT Out)
open Claw.Tok

/-- C80. A bytes field is written as a string from which a reader of base64 (RFC 4648) gets the bytes. For all bytes. -/
theorem C80_bytes_decodable (b : Bytes) (u : Bool) (n : Nat) :
    ∃ t, marshal (oneField .bytes) u noDec n 0 [.bin b] = .ok [.lbrace, .str (lit "x"), .colon, .str t, .rbrace] ∧
      decode64 t = some b :=
  ⟨base64 b, rfl, decode64_base64 b⟩

/-- C80: so are the items of a list of bytes, in order, however many. -/
theorem C80_bytes_list_decodable (bs : List Bytes) (hb : bs ≠ []) (env : Env) (u : Bool) (anyJ : Bytes → Bytes → J) :
    ∃ ts : List Bytes, tree env u anyJ .listBytes (.bins bs) = .arr (Js.ofList .str ts) ∧ ts.map decode64 = bs.map some := by
  refine ⟨bs.map base64, ?_, ?_⟩
  · simp only [tree, if_neg hb, J.arr.injEq]
    clear hb
    induction bs with
    | nil => rfl
    | cons b bs ih => simp only [Js.ofList, List.map_cons, ih]
  · rw [List.map_map]
    exact List.map_congr_left fun b _ => decode64_base64 b

/-- C80: an Any whose type is not registered is written as an object from which its type hash and its bytes can be
read. For every hash and all bytes. -/
theorem C80_any_decodable (hash data : Bytes) (u : Bool) (n : Nat) :
    ∃ t v, marshal (oneField .any) u noDec n 0 [.any hash data] =
        .ok [.lbrace, .str (lit "x"), .colon, .lbrace, .str (lit "@type"), .colon, .str t, .comma,
          .str (lit "@value"), .colon, .str v, .rbrace, .rbrace] ∧
      decode16 t = some hash ∧ decode64 v = some data := by
  refine ⟨hexOf hash, base64 data, ?_, decode16_hexOf hash, decode64_base64 data⟩
  cases n <;> rfl

/-- C80: an Any whose type is registered is written with its type hash, the name of the type and the members of the
struct. -/
theorem C80_any_typed (env : Env) (u : Bool) (dec : AnyDec) (n : Nat) (hash data : Bytes) (s : Nat) (fs : List Val) (name : Str)
    (h : dec hash data = some (s, fs, name)) :
    ∃ t m, anyTree env u dec (n + 1) hash data = .obj (.cons (lit "@type") (.str t) (.cons (lit "@fieldType") (.str name) m)) ∧
      decode16 t = some hash ∧ m = treeFields env u (anyTree env u dec n) (env s) fs := by
  refine ⟨hexOf hash, _, ?_, decode16_hexOf hash, rfl⟩
  rw [anyTree, h]

/-- C80: different bytes are written differently. -/
theorem C80_injective (b c : Bytes) (h : base64 b = base64 c) : b = c := by
  have h1 := decode64_base64 b
  rw [h, decode64_base64] at h1
  simpa using h1.symm

example : base64 [1, 2, 3, 255] = lit "AQID/w==" := by decide

example : ∃ t m, anyTree exEnv false exDec 2 (List.replicate 16 7) [1] =
      .obj (.cons (lit "@type") (.str t) (.cons (lit "@fieldType") (.str (lit "Leaf")) m)) ∧
    decode16 t = some (List.replicate 16 7) ∧ m = treeFields exEnv false (anyTree exEnv false exDec 1) (exEnv 0) exLeaf :=
  C80_any_typed exEnv false exDec 1 _ _ 0 exLeaf _ rfl

end Claw.Json
