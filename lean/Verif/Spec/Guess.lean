import Verif.Spec.RawRow
import Verif.Spec.Convert
/-
Specification vocabulary for inferred column types (C77): which values say what type they have.
-/
namespace Klick.Spec
open Klick

mutual
/-- No enum value anywhere in it. -/
def NoEnum : Value → Prop
  | .enum8 _ => False
  | .enum16 _ => False
  | .array xs => NoEnums xs
  | .tuple xs => NoEnums xs
  | .map ks vs => NoEnums ks ∧ NoEnums vs
  | _ => True
/-- Of all of them. -/
def NoEnums : List Value → Prop
  | [] => True
  | v :: vs => NoEnum v ∧ NoEnums vs
end

mutual
/-- A Rust value that shows its type: every list and map in it that comes first has a first element that shows its type, and
no `None` stands first. -/
def Telling : (t : RT) → t.den → Prop
  | .prim _ => fun _ => True
  | .string => fun _ => True
  | .bytes => fun _ => True
  | .value => fun v => NoEnum v
  | .vec t => fun (xs : List t.den) => ∃ y ∈ xs.head?, Telling t y
  | .array t n => fun (xs : { xs : List t.den // xs.length = n }) => ∃ y ∈ xs.1.head?, Telling t y
  | .option t => fun (x : Option t.den) => ∃ y, x = some y ∧ ¬ NullLike t y ∧ Telling t y
  | .box t => fun (x : t.den) => Telling t x
  | .vecTuple _ => fun _ => False
  | .tuple ts => fun (x : RT.dens ts) => TellingAll ts x
  | .map k v => fun (es : List (k.den × v.den)) => ∃ e ∈ es.head?, Telling k e.1 ∧ Telling v e.2
/-- Memberwise. -/
def TellingAll : (ts : List RT) → RT.dens ts → Prop
  | [] => fun _ => True
  | t :: ts => fun (x : t.den × RT.dens ts) => Telling t x.1 ∧ TellingAll ts x.2
end

mutual
/-- A Rust value with a column value of its own, whatever the column: no `Some(None)`, maps with distinct keys (every Rust map has),
no `VecTuple`. -/
def Sound : (t : RT) → t.den → Prop
  | .prim _ => fun _ => True
  | .string => fun _ => True
  | .bytes => fun _ => True
  | .value => fun _ => True
  | .vec t => fun (xs : List t.den) => ∀ x ∈ xs, Sound t x
  | .array t n => fun (xs : { xs : List t.den // xs.length = n }) => ∀ x ∈ xs.1, Sound t x
  | .option t => fun (x : Option t.den) => ∀ y, x = some y → ¬ NullLike t y ∧ Sound t y
  | .box t => fun (x : t.den) => Sound t x
  | .vecTuple _ => fun _ => False
  | .tuple ts => fun (x : RT.dens ts) => SoundAll ts x
  | .map k v => fun (es : List (k.den × v.den)) => es.Pairwise (fun a b => k.keyEq a.1 b.1 = false) ∧
      ∀ e ∈ es, Sound k e.1 ∧ Sound v e.2
/-- Memberwise. -/
def SoundAll : (ts : List RT) → RT.dens ts → Prop
  | [] => fun _ => True
  | t :: ts => fun (x : t.den × RT.dens ts) => Sound t x.1 ∧ SoundAll ts x.2
end

mutual
/-- Rust values whose inferred type does: scalars and texts; empty lists and maps; lists and maps whose first element shows its
type; options and tuples of these. -/
def Inferable : (t : RT) → t.den → Prop
  | .prim _ => fun _ => True
  | .string => fun _ => True
  | .bytes => fun _ => True
  | .value => fun v => NoEnum v
  | .vec t => fun (xs : List t.den) => xs = [] ∨ (Telling (.vec t) xs ∧ Sound (.vec t) xs)
  | .array t n => fun (xs : { xs : List t.den // xs.length = n }) => n = 0 ∨ (Telling (.array t n) xs ∧ Sound (.array t n) xs)
  | .option t => fun (x : Option t.den) => ∀ y, x = some y → ¬ NullLike t y ∧ Inferable t y
  | .box t => fun (x : t.den) => Inferable t x
  | .vecTuple t => fun (xs : List t.den) => ∀ x ∈ xs, Inferable t x
  | .tuple ts => fun (x : RT.dens ts) => InferableAll ts x
  | .map k v => fun (es : List (k.den × v.den)) => es = [] ∨ (Telling (.map k v) es ∧ Sound (.map k v) es)
/-- Memberwise. -/
def InferableAll : (ts : List RT) → RT.dens ts → Prop
  | [] => fun _ => True
  | t :: ts => fun (x : t.den × RT.dens ts) => Inferable t x.1 ∧ InferableAll ts x.2
end

end Klick.Spec
