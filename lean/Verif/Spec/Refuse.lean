import Verif.Spec.Convert
/-
Specification vocabulary: when a column value cannot be read as a Rust type, and what the error says (C91).
-/
namespace Klick.Spec
open Klick

/-- A column of text. -/
def Textual (T : Ty) : Prop := T = .string ∨ ∃ n, T = .fixedString n

/-- A column of arrays of bytes. -/
def ByteArray (T : Ty) : Prop := T = .array .uint8 ∨ T = .array .int8

/-- "unexpected type: Array(String)" -/
def WrongType (T : Ty) : Err := .deserialize (ch! "unexpected type: " ++ T.display)

/-- One thing to be read: as which Rust type, from a column of which type, and the value. -/
abbrev Portion := RT × Ty × Value

/-- On its own level the value is as the Rust type wants it, and these are the parts still to be read, in
order. `LowCardinality` around the type of a part is not looked at (except by `VecTuple`). -/
inductive Parts : RT → Ty → Value → List Portion → Prop where
  | scalar {p : Prim} {T v} : Column p T → Parts (.prim p) T v []
  | string {T} (s : Str) : Textual T → Parts .string T (.string (utf8Encode s)) []
  | bytes {T v} : Textual T ∨ ByteArray T → Parts .bytes T v []
  | value {T v} : Parts .value T v []
  | vec {t S vs} : Parts (.vec t) (.array S) (.array vs) (vs.map fun v => (t, S.stripLowCardinality, v))
  | array {t n S} {vs : List Value} : vs.length = n →
      Parts (.array t n) (.array S) (.array vs) (vs.map fun v => (t, S.stripLowCardinality, v))
  | null {t T} : Parts (.option t) T .null []
  | nullable {t S v} : v ≠ .null → Parts (.option t) (.nullable S) v [(t, S.stripLowCardinality, v)]
  | plain {t T v} : v ≠ .null → (∀ S, T ≠ .nullable S) → Parts (.option t) T v [(t, T, v)]
  | box {t T v} : Parts (.box t) T v [(t, T, v)]
  | vecTuple {t} {Ts : List Ty} {vs : List Value} : vs.length = Ts.length →
      Parts (.vecTuple t) (.tuple Ts) (.tuple vs) ((Ts.zip vs).map fun e => (t, e.1, e.2))
  | tuple {ts : List RT} {Ts : List Ty} {vs : List Value} : vs.length = Ts.length → vs.length = ts.length →
      Parts (.tuple ts) (.tuple Ts) (.tuple vs) (ts.zip ((Ts.map Ty.stripLowCardinality).zip vs))
  | map {k w K V ks vs} : Parts (.map k w) (.map K V) (.map ks vs)
      ((ks.zip vs).flatMap fun e => [(k, K.stripLowCardinality, e.1), (w, V.stripLowCardinality, e.2)])

/-- On its own level the value is not as the Rust type wants it, and this is the error. -/
inductive Misfit : RT → Ty → Value → Err → Prop where
  | scalar {p : Prim} {T v} : ¬ Column p T → Misfit (.prim p) T v (WrongType T)
  | string {T v} : ¬ Textual T → Misfit .string T v (WrongType T)
  | utf8 {T b} : Textual T → (∀ s, b ≠ utf8Encode s) → Misfit .string T (.string b) .utf8
  | bytes {T v} : ¬ (Textual T ∨ ByteArray T) → Misfit .bytes T v (WrongType T)
  | vec {t T v} : (∀ S, T ≠ .array S) → Misfit (.vec t) T v (WrongType T)
  | array {t n T v} : (∀ S, T ≠ .array S) → Misfit (.array t n) T v (WrongType T)
  | arrayLength {t n S} {vs : List Value} : vs.length ≠ n → Misfit (.array t n) (.array S) (.array vs)
      (.deserialize (ch! "invalid length for array: " ++ dec vs.length ++ ch! " expected " ++ dec n))
  | vecTuple {t T v} : (∀ Ts, T ≠ .tuple Ts) → Misfit (.vecTuple t) T v (WrongType T)
  | vecTupleLength {t} {Ts : List Ty} {vs : List Value} : vs.length ≠ Ts.length →
      Misfit (.vecTuple t) (.tuple Ts) (.tuple vs)
        (.deserialize (ch! "unexpected type: mismatch tuple length expected " ++ dec Ts.length ++ ch! ", got " ++ dec vs.length))
  | tuple {ts T v} : (∀ Ts, T ≠ .tuple Ts) → Misfit (.tuple ts) T v (WrongType T)
  | tupleLength {ts : List RT} {Ts : List Ty} {vs : List Value} : vs.length ≠ Ts.length →
      Misfit (.tuple ts) (.tuple Ts) (.tuple vs)
        (.deserialize (ch! "unexpected type: mismatch tuple length expected " ++ dec Ts.length ++ ch! ", got " ++ dec vs.length))
  | tupleMembers {ts : List RT} {Ts : List Ty} {vs : List Value} : vs.length = Ts.length → vs.length ≠ ts.length →
      Misfit (.tuple ts) (.tuple Ts) (.tuple vs)
        (.deserialize (ch! "unexpected type: mismatch tuple length expected " ++ dec ts.length ++ ch! ", got " ++ dec vs.length))
  | map {k w T v} : (∀ K V, T ≠ .map K V) → Misfit (.map k w) T v (WrongType T)

/-- The value can be read: it is as wanted on every level. -/
inductive Readable : RT → Ty → Value → Prop where
  | mk {r T v ps} : Parts r T v ps → (∀ r' T' v', (r', T', v') ∈ ps → Readable r' T' v') → Readable r T v

/-- The value cannot be read, and this is the error: that of the first part, in the order of reading, which
is not as wanted. -/
inductive Unreadable : RT → Ty → Value → Err → Prop where
  | here {r T v e} : Misfit r T v e → Unreadable r T v e
  | part {r T v ps pre r' T' v' post e} : Parts r T v ps → ps = pre ++ (r', T', v') :: post →
      (∀ q T₁ v₁, (q, T₁, v₁) ∈ pre → Readable q T₁ v₁) → Unreadable r' T' v' e → Unreadable r T v e

end Klick.Spec
