import Verif.Model.TsPath
/- Where a parameter should be, for a checkpoint in directory D. -/
namespace Verif.TsPath.Spec
open Verif.TsPath

/-- `gs://bucket/path` or anything that does not begin with `gs://`. -/
def Dir (D : Str) : Prop := gsPrefix.isPrefixOf D = true → matchGs D ≠ none

/-- The place of relative path p: in the bucket and below the path of a gs:// directory, else below D. -/
def place (D p : Str) : Verif.TsPath.Spec :=
  match matchGs D with
  | some (b, d) => ⟨.gcs, some b, some (pathJoin d p), none⟩
  | none => ⟨.file, none, some (pathJoin D p), none⟩

/-- Key tuples of parameters as they should be: no separator inside a key. -/
def Clean (ks : List Str) : Prop := ks ≠ [] ∧ ∀ k ∈ ks, '/' ∉ k ∧ '.' ∉ k

end Verif.TsPath.Spec
