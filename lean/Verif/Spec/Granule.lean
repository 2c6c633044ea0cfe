import Verif.Codec
import Verif.Spec.Layout
/-
Specification vocabulary for LowCardinality columns as a server lays them out (C86).
-/
namespace Klick.Spec
open Klick

/-- One granule of a LowCardinality column: the code of its index width (1, 2, 4 or 8 bytes), whether its indices refer to the dictionary shared by
the granules, whether that is to be replaced, the dictionary to be shared from here on, the granule's own keys if it has any, and the indices. -/
structure Granule where
  code : Fin 4
  shared : Bool
  update : Bool
  newShared : List Value
  own : Option (List Value)
  indices : List Nat

namespace Granule

/-- Bytes per index. -/
def width (g : Granule) : Nat := 2 ^ g.code.val

/-- The word in front: bits 0-7 the index width, 8 the shared dictionary is needed, 9 there are own keys, 10 the shared dictionary is replaced. -/
def flags (g : Granule) : Nat :=
  g.code.val + (if g.shared then 256 else 0) + (if g.own.isSome then 512 else 0) + (if g.update then 1024 else 0)

/-- The shared dictionary is sent when it is needed and either there is none yet or it is replaced. -/
def sends (g : Granule) (cur : Option (List Value)) : Bool := g.shared && (cur.isNone || g.update)

/-- The shared dictionary from this granule on. -/
def next (g : Granule) (cur : Option (List Value)) : Option (List Value) := if g.sends cur then some g.newShared else cur

/-- The shared entries the granule refers to. -/
def sharedPart (g : Granule) (cur : Option (List Value)) : List Value := if g.shared then (g.next cur).getD [] else []

/-- What an index names, for the server: the indices count through the shared dictionary, then through the own keys; in a nullable column the first
entry stands for NULL. -/
def named (nullable : Bool) (cur : Option (List Value)) (g : Granule) (i : Nat) : Option Value :=
  match (g.sharedPart cur ++ g.own.getD [])[i]? with
  | some v => some (if nullable && i == 0 then .null else v)
  | none => none

/-- What an index names for the client: the own keys come first, and only own keys have a NULL. -/
def namedByClient (nullable : Bool) (cur : Option (List Value)) (g : Granule) (i : Nat) : Option Value :=
  match (g.own.getD [] ++ g.sharedPart cur)[i]? with
  | some v => some (if nullable && g.own.isSome && i == 0 then .null else v)
  | none => none

end Granule

/-- The bytes of a dictionary: those of a column of its entries (see C04, C05), each in the normal form of its type. -/
structure DictBytes (cfg : Cfg) (t : Ty) (d : List Value) (b : Bytes) : Prop where
  fits : d.length ≤ 2 ^ 30
  entries : ∀ v ∈ d, Storable cfg t v ∧ canon t v = v
  bytes : serCol cfg t d = .ok b

/-- The bytes of a granule. -/
inductive Granule.Wire (cfg : Cfg) (t : Ty) (cur : Option (List Value)) (g : Granule) : Bytes → Prop where
  | mk (b1 b2 : Bytes) : (g.sends cur = true → DictBytes cfg t g.newShared b1) → (∀ ks, g.own = some ks → DictBytes cfg t ks b2) →
      Granule.Wire cfg t cur g (leBytes 8 g.flags ++
        (if g.sends cur then leBytes 8 g.newShared.length ++ b1 else []) ++
        (if g.own.isSome then leBytes 8 (g.own.getD []).length ++ b2 else []) ++
        leBytes 8 g.indices.length ++ (g.indices.map (leBytes g.width)).flatten)

/-- Granules on the wire one after the other, beginning with a shared dictionary or none, and the values their indices name. No granule is empty, and
every index fits its width. -/
inductive Granules (cfg : Cfg) (t : Ty) (names : Option (List Value) → Granule → Nat → Option Value) :
    Option (List Value) → List Granule → Bytes → List Value → Prop where
  | done {cur} : Granules cfg t names cur [] [] []
  | more {cur g b vs gs bs ws} : g.Wire cfg t cur b → g.indices ≠ [] → (∀ i ∈ g.indices, i < 256 ^ g.width) →
      g.indices.map (names cur g) = vs.map some → Granules cfg t names (g.next cur) gs bs ws →
      Granules cfg t names cur (g :: gs) (b ++ bs) (vs ++ ws)

/-- `LowCardinality(t)` or `LowCardinality(Nullable(t))`. -/
def lcType (nullable : Bool) (t : Ty) : Ty := .lowCardinality (if nullable then .nullable t else t)

/-- The granule refers to one dictionary only, and to its own when the column is nullable. -/
def Granule.Plain (nullable : Bool) (g : Granule) : Prop := g.shared = false ∨ (g.own = none ∧ nullable = false)

end Klick.Spec
