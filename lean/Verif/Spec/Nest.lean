import Verif.Nest
import Verif.Spec.Fitting
/-
Words for C104: what a container of user types asks of them, and when two values are the same up to what the user types make of theirs.
-/
namespace Klick.Spec
open Klick

/-- What is asked of one value `x` of a user type in a column of type `T`: however the writer is told of the type, as far as `hinted` says it is,
`x` is converted to a value that is not NULL and that the column takes and keeps, and that is read back as `x` up to `R`. -/
def StoredAs {α : Type} (cfg : Cfg) (c : SqlType α) (R : α → α → Prop) (hinted : Bool) (T : Ty) (x : α) : Prop :=
  ∀ h, Hint hinted h T → ∃ v y, c.toSql h x = .ok v ∧ v ≠ .null ∧ T.innerValidate cfg v = true ∧ Storable cfg T v ∧ canon T v = v ∧
    c.fromSql T v = .ok y ∧ R x y

variable {ι : Type} {A : ι → Type}

/-- Bytes, of either sign: a vector of these is an ordinary type. -/
def isByteType : Nest ι → Bool
  | .std (.prim .u8) => true
  | .std (.prim .i8) => true
  | _ => false

/-- Values that are written as NULL (user types have none). -/
def NestNull : (t : Nest ι) → t.den A → Prop
  | .std t => fun x => NullLike t x
  | .option t => fun (x : Option (t.den A)) => match x with
    | none => True
    | some y => NestNull t y
  | .box t => fun (x : t.den A) => NestNull t x
  | _ => fun _ => False

mutual
/-- The container goes with the column type, and every value of a user type in it is stored by its column. Conditions on ordinary values are those
of C45 and C103. -/
def Holds (cfg : Cfg) (L : ∀ i, SqlType (A i)) (R : ∀ i, A i → A i → Prop) : (t : Nest ι) → Bool → Ty → t.den A → Prop
  | .std t => fun hinted T x => Suits hinted t T ∧ Faithful t T x ∧ Fitting cfg true t T x
  | .user i => fun hinted T x => StoredAs cfg (L i) (R i) hinted T x
  | .vec t => fun hinted T (xs : List (t.den A)) => isByteType t = false ∧
      ∃ S, T = .array S ∧ ∀ x ∈ xs, Holds cfg L R t hinted S.stripLowCardinality x
  | .array t n => fun hinted T (xs : { xs : List (t.den A) // xs.length = n }) =>
      ∃ S, T = .array S ∧ ∀ x ∈ xs.1, Holds cfg L R t hinted S.stripLowCardinality x
  | .option t => fun hinted T (x : Option (t.den A)) => match x with
      | none => ∃ S, T = .nullable S ∧ isGeo S = false
      | some y => ¬ NestNull t y ∧
          ((∃ S, T = .nullable S ∧ Holds cfg L R t (hinted && !isLc S) S.stripLowCardinality y) ∨
           (T.isNullable = false ∧ Holds cfg L R t false T y))
  | .box t => fun hinted T (x : t.den A) => Holds cfg L R t hinted T x
  | .vecTuple t => fun hinted T (xs : List (t.den A)) => ∃ Ts, T = .tuple Ts ∧ xs.length = Ts.length ∧
      ∀ e ∈ xs.zip Ts, Holds cfg L R t hinted e.2 e.1
  | .tuple ts => fun hinted T (x : Nest.dens A ts) => ∃ Ts, T = .tuple Ts ∧ HoldsAll cfg L R ts hinted Ts x
  | .map k v => fun hinted T (es : List (k.den × v.den A)) => ∃ K V, T = .map K V ∧
      Suits (hinted && !isLc K) k K.stripLowCardinality ∧ es.Pairwise (fun a b => k.keyEq a.1 b.1 = false) ∧
      ∀ e ∈ es, Faithful k K.stripLowCardinality e.1 ∧ Fitting cfg true k K.stripLowCardinality e.1 ∧
        Holds cfg L R v (hinted && !isLc V) V.stripLowCardinality e.2
/-- Memberwise. -/
def HoldsAll (cfg : Cfg) (L : ∀ i, SqlType (A i)) (R : ∀ i, A i → A i → Prop) : (ts : List (Nest ι)) → Bool → List Ty → Nest.dens A ts → Prop
  | [] => fun _ Ts _ => Ts = []
  | t :: ts => fun hinted Ts (x : t.den A × Nest.dens A ts) => ∃ S Ss, Ts = S :: Ss ∧
      Holds cfg L R t (hinted && !isLc S) S.stripLowCardinality x.1 ∧ HoldsAll cfg L R ts hinted Ss x.2
end

mutual
/-- The same shape with the same ordinary values, and user values the same up to `R`. -/
def SameUpTo (R : ∀ i, A i → A i → Prop) : (t : Nest ι) → t.den A → t.den A → Prop
  | .std t => fun (x y : t.den) => x = y
  | .user i => R i
  | .vec t => fun (xs ys : List (t.den A)) => Each (SameUpTo R t) xs ys
  | .array t n => fun (xs ys : { xs : List (t.den A) // xs.length = n }) => Each (SameUpTo R t) xs.1 ys.1
  | .option t => fun (x y : Option (t.den A)) => match x, y with
      | none, none => True
      | some a, some b => SameUpTo R t a b
      | _, _ => False
  | .box t => fun (x y : t.den A) => SameUpTo R t x y
  | .vecTuple t => fun (xs ys : List (t.den A)) => Each (SameUpTo R t) xs ys
  | .tuple ts => fun (x y : Nest.dens A ts) => SameAll R ts x y
  | .map k v => fun (xs ys : List (k.den × v.den A)) => Each (fun a b => a.1 = b.1 ∧ SameUpTo R v a.2 b.2) xs ys
/-- Memberwise. -/
def SameAll (R : ∀ i, A i → A i → Prop) : (ts : List (Nest ι)) → Nest.dens A ts → Nest.dens A ts → Prop
  | [] => fun _ _ => True
  | t :: ts => fun (x y : t.den A × Nest.dens A ts) => SameUpTo R t x.1 y.1 ∧ SameAll R ts x.2 y.2
end

end Klick.Spec
