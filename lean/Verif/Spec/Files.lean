import Verif.Spec.Factory
import Verif.Model.Python

/-!
# Vocabulary for opening files
-/

namespace Z5

/-- Without everything at and below `p` -/
def Fs.without (σ : Fs) (p : Path) : Fs := fun q => if p <+: q then none else σ q

/-- The format that is inferred for a path: by the extension, otherwise by the documents that are there -/
def Fs.looksLikeZarr (σ : Fs) (p : Path) (base : String) : Bool :=
  if pyExtension base.toList = ".zarr".toList ∨ pyExtension base.toList = ".zr".toList then true
  else if pyExtension base.toList = ".n5".toList then false
  else (σ (p ++ [".zgroup"])).isSome || (σ (p ++ [".zarray"])).isSome || (σ (p ++ ["zarr.json"])).isSome

/-- The container at `p` states its version `v`: in `zarr.json`, or else `.zgroup` (`z`), or in the attributes
    of N5 if there are none of these. -/
inductive Fs.StatesVersion (σ : Fs) (p : Path) : Bool → Json → Prop where
  | v3 {j v : Json} : σ p ≠ none → σ.docAt (p ++ ["zarr.json"]) = some j →
      j.find "zarr_format" = some v → σ.StatesVersion p true v
  | v2 {j v : Json} : σ p ≠ none → σ (p ++ ["zarr.json"]) = none → σ.docAt (p ++ [".zgroup"]) = some j →
      j.find "zarr_format" = some v → σ.StatesVersion p true v
  | n5 {j v : Json} : σ p ≠ none → σ (p ++ ["zarr.json"]) = none → σ (p ++ [".zgroup"]) = none →
      σ.docAt (p ++ ["attributes.json"]) = some j → j.find "n5" = some v → σ.StatesVersion p false v

/-- The container is of a supported version: the zarr format 2 or 3, or an N5 version whose first digit is at
    most 4. -/
inductive Fs.Supported (σ : Fs) (p : Path) : Option Int → Prop where
  | zarr {i : Int} : σ.StatesVersion p true (.int i) → i = 2 ∨ i = 3 → σ.Supported p (some i)
  | n5 {c : Char} {cs : List Char} : σ.StatesVersion p false (.str (String.ofList (c :: cs))) →
      c ∈ ['0', '1', '2', '3', '4'] → σ.Supported p none

/-- The container is of a version that is not supported: another zarr format, or an N5 version from 5 on (of
    one digit). -/
inductive Fs.Unsupported (σ : Fs) (p : Path) : Prop where
  | zarr {i : Int} : σ.StatesVersion p true (.int i) → i ≠ 2 → i ≠ 3 → σ.Unsupported p
  | n5 {c : Char} {cs : List Char} : σ.StatesVersion p false (.str (String.ofList (c :: cs))) →
      c ∈ ['5', '6', '7', '8', '9'] → σ.Unsupported p

end Z5
