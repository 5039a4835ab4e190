import Verif.Model.Analyze
/-
Specification of a directory listing.
-/
namespace FMV.Spec
open Matlab Console

/-- `d` is the listing of a directory with the entries `es`: these and the two special entries, in ascending order of the names (character codes). -/
structure Listing (d es : List Entry) : Prop where
  all : d.Perm (⟨['.'], none⟩ :: ⟨['.', '.'], none⟩ :: es)
  sorted : d.Pairwise (fun a b => a.name < b.name)

end FMV.Spec
