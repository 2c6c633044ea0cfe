import Verif.ClusterText
/-
Specification vocabulary for the placeholders of cluster migrations (C84).
-/
namespace Klick.Spec
open Klick

/-- A piece of a script: text, or a place for the cluster's or the database's name. -/
inductive Piece where
  | text (s : Str)
  | cluster
  | database
deriving DecidableEq, Repr

/-- How a script is written. -/
def Piece.source : Piece → Str
  | .text s => s
  | .cluster => ch! "%CLUSTER%"
  | .database => ch! "%DATABASE%"

/-- What is meant, for a cluster and a database. -/
def Piece.filled (cluster database : Str) : Piece → Str
  | .text s => s
  | .cluster => cluster
  | .database => database

/-- The script as written. -/
def sourceOf (ps : List Piece) : Str := ps.flatMap Piece.source

/-- The script with the names filled in. -/
def filledIn (cluster database : Str) (ps : List Piece) : Str := ps.flatMap (Piece.filled cluster database)

/-- The text up to each place `hole`, including the `%` the place begins with, and the text after the last one. -/
def stretches (hole : Piece) (render : Piece → Str) : List Piece → List Str
  | [] => [[]]
  | p :: ps =>
    if p = hole then ['%'] :: stretches hole render ps
    else match stretches hole render ps with
      | r :: rs => (render p ++ r) :: rs
      | [] => [render p]

/-- `p` is somewhere in `s`. -/
def Occurs (p s : Str) : Prop := ∃ u v, s = u ++ p ++ v

/-- No text can be mistaken for a placeholder: not for the database's in the script as written, not for the cluster's once the
database's name is filled in. -/
structure Unmistakable (database : Str) (ps : List Piece) : Prop where
  forDatabase : ∀ r ∈ stretches .database Piece.source ps, ¬ Occurs (ch! "%DATABASE%") r
  forCluster : ∀ r ∈ stretches .cluster (Piece.filled [] database) ps, ¬ Occurs (ch! "%CLUSTER%") r

end Klick.Spec
