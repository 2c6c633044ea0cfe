import Verif.Nest
import Verif.Spec.Refuse
import Verif.Spec.Record
/-
Words for C105: what a container asks of the types inside it, in order, and how that ends.
-/
namespace Klick.Spec
open Klick

/-- How a conversion ends. -/
inductive Went where
  | fine
  | failed (e : Err)
  | crashed

/-- Of a result, only how it ended. -/
def went {α : Type} : Res α → Went
  | .ok _ => .fine
  | .err e => .failed e
  | .panic => .crashed

/-- Things done one after the other, up to the first that does not go well, end like that one; if all go well, well. -/
def InOrder (ws : List Went) (w : Went) : Prop :=
  (w = .fine ∧ ∀ u ∈ ws, u = .fine) ∨ (w ≠ .fine ∧ ∃ pre post, ws = pre ++ w :: post ∧ ∀ u ∈ pre, u = .fine)

variable {ι : Type} {A : ι → Type}

/-- A user type asked to write a value, being told this of the column. -/
structure Asked (A : ι → Type) where
  /-- the user type -/
  type : ι
  /-- what it is told of the column's type -/
  told : Option Ty
  /-- the value -/
  value : A type

/-- The elements' type, `LowCardinality` left out. -/
def toldElem : Option Ty → Option Ty
  | some (.array S) => some S.stripLowCardinality
  | _ => none
/-- The type under `Nullable`. -/
def toldInner : Option Ty → Option Ty
  | some (.nullable S) => some S
  | _ => none
/-- The type of member `j`. -/
def toldMember (j : Nat) : Option Ty → Option Ty
  | some (.tuple Ts) => Ts[j]?
  | _ => none
/-- The type of the values of a map. -/
def toldValue : Option Ty → Option Ty
  | some (.map _ V) => some V
  | _ => none

mutual
/-- The user types that are asked when a container is written, in order, each once for every value of it. -/
def calls : (t : Nest ι) → Option Ty → t.den A → List (Asked A)
  | .std _ => fun _ _ => []
  | .user i => fun h x => [⟨i, h, x⟩]
  | .vec t => fun h (xs : List (t.den A)) => xs.flatMap (calls t (toldElem h))
  | .array t n => fun h (xs : { xs : List (t.den A) // xs.length = n }) => xs.1.flatMap (calls t (toldElem h))
  | .option t => fun h (x : Option (t.den A)) => match x with
      | none => []
      | some y => calls t (toldInner h) y
  | .box t => fun h (x : t.den A) => calls t h x
  | .vecTuple t => fun h (xs : List (t.den A)) => (xs.zipIdx).flatMap (fun e => calls t (toldMember e.2 h) e.1)
  | .tuple ts => fun h (x : Nest.dens A ts) => callsAll ts 0 h x
  | .map k v => fun h (es : List (k.den × v.den A)) => es.flatMap (fun e => calls v (toldValue h) e.2)
/-- The members from number `j` on. -/
def callsAll : (ts : List (Nest ι)) → (j : Nat) → Option Ty → Nest.dens A ts → List (Asked A)
  | [], _ => fun _ _ => []
  | t :: ts, j => fun h (x : t.den A × Nest.dens A ts) => calls t (toldMember j h) x.1 ++ callsAll ts (j + 1) h x.2
end

/-- Something done while a container is read: a user type, or an ordinary one, is asked to read a value of a column, or the container itself finds that
the value does not fit. -/
inductive Step (ι : Type) where
  | user (i : ι) (T : Ty) (v : Value)
  | std (r : RT) (T : Ty) (v : Value)
  | refuse (e : Err)

/-- How a step ends. -/
def Step.went (L : ∀ i, SqlType (A i)) : Step ι → Went
  | .user i T v => Spec.went ((L i).fromSql T v)
  | .std r T v => Spec.went (r.fromSql T v)
  | .refuse e => .failed e

mutual
/-- What is done, in order, to read a value of a column of type `T` as a container. (Where the value is none of the column, nothing.) -/
def steps : Nest ι → Ty → Value → List (Step ι)
  | .std r, T, v => [.std r T v]
  | .user i, T, v => [.user i T v]
  | .vec t, T, v => match T with
      | .array S => match v with
        | .array vs => vs.flatMap (steps t S.stripLowCardinality)
        | _ => []
      | _ => [.refuse (WrongType T)]
  | .array t n, T, v => match T with
      | .array S => match v with
        | .array vs => if vs.length = n then vs.flatMap (steps t S.stripLowCardinality)
          else [.refuse (.deserialize (ch! "invalid length for array: " ++ dec vs.length ++ ch! " expected " ++ dec n))]
        | _ => []
      | _ => [.refuse (WrongType T)]
  | .option t, T, v => match v with
      | .null => []
      | _ => match T with
        | .nullable S => steps t S.stripLowCardinality v
        | _ => steps t T v
  | .box t, T, v => steps t T v
  | .vecTuple t, T, v => match T with
      | .tuple Ts => match v with
        | .tuple vs => if vs.length = Ts.length then (Ts.zip vs).flatMap (fun e => steps t e.1 e.2)
          else [.refuse (.deserialize (ch! "unexpected type: mismatch tuple length expected " ++ dec Ts.length ++ ch! ", got " ++ dec vs.length))]
        | _ => []
      | _ => [.refuse (WrongType T)]
  | .tuple ts, T, v => match T with
      | .tuple Ts => match v with
        | .tuple vs =>
          if vs.length ≠ Ts.length then
            [.refuse (.deserialize (ch! "unexpected type: mismatch tuple length expected " ++ dec Ts.length ++ ch! ", got " ++ dec vs.length))]
          else if vs.length ≠ ts.length then
            [.refuse (.deserialize (ch! "unexpected type: mismatch tuple length expected " ++ dec ts.length ++ ch! ", got " ++ dec vs.length))]
          else stepsAll ts (Ts.zip vs)
        | _ => []
      | _ => [.refuse (WrongType T)]
  | .map k w, T, v => match T with
      | .map K V => match v with
        | .map ks vs => (ks.zip vs).flatMap (fun e => .std k K.stripLowCardinality e.1 :: steps w V.stripLowCardinality e.2)
        | _ => []
      | _ => [.refuse (WrongType T)]
/-- The members in order. -/
def stepsAll : List (Nest ι) → List (Ty × Value) → List (Step ι)
  | t :: ts, e :: es => steps t e.1.stripLowCardinality e.2 ++ stepsAll ts es
  | _, _ => []
end

/-! Rows of structs -/

/-- The user types asked when a struct is written into a table with these columns: field after field. -/
def recordCalls (header : IMap Ty) : (fs : List (Str × Nest ι)) → RecordVal A fs → List (Asked A)
  | [], _ => []
  | f :: fs, x => calls f.2 (header.get f.1) x.1 ++ recordCalls header fs x.2

/-- The error of a column names it (C56). -/
def Went.named (n : Str) : Went → Went
  | .failed e => .failed (e.withColumn n)
  | w => w

/-- The field a column is read into: the one of its name, and if there is none, the one at the column's place; a column beyond the last field is passed
over. -/
def fieldFor (fs : List (Str × Nest ι)) (place : Nat) (name : Str) : Option (Str × Nest ι) :=
  match fs.find? (fun f => f.1 == name) with
  | some f => some f
  | none => fs[place]?

/-- How reading a column into a field ends, step by step; errors name the field. -/
def columnEnds (L : ∀ i, SqlType (A i)) (f : Str × Nest ι) (c : Cell) : List Went :=
  (steps f.2 c.2.1.stripLowCardinality c.2.2).map (fun s => (s.went L).named f.1)

/-- How reading a row into the struct ends, step by step, from the column at `place` on, when the fields `seen` have been given already: column after
column in the order in which they came, a second column for a field being an error; then the fields that have not been given, the first of which is an
error. -/
def rowEnds (L : ∀ i, SqlType (A i)) (fs : List (Str × Nest ι)) : (place : Nat) → (seen : List Str) → List Cell → List Went
  | _, seen, [] => (fs.filter (fun f => !(seen.contains f.1))).map (fun f => .failed (.missingField f.1))
  | place, seen, c :: cells =>
    match fieldFor fs place c.1 with
    | some f => (if seen.contains f.1 then [.failed (.duplicateField f.1)] else columnEnds L f c) ++ rowEnds L fs (place + 1) (f.1 :: seen) cells
    | none => rowEnds L fs (place + 1) seen cells

end Klick.Spec
