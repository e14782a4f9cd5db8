import Verif.Spec.Container
import Verif.Spec.S3Foreign
import Verif.Spec.Visit
import Verif.Model.S3Group

/-!
# A container on S3 as a tree of groups and arrays (C79)

The trees are those of `Spec/Container.lean`.  `S3History` says which calls have been made on a container on S3 and what they did
to the tree.
-/

namespace Z5

open Spec

/-- A name of a group or an array: without slashes, and not one of the objects with metadata -/
def NodeName (n : String) : Prop := n ≠ "" ∧ '/' ∉ n.toList ∧ PlainName n

/-- A path as a text: its names with slashes between them -/
def Path.text (p : Path) : Key := slashed (p.map String.toList)

/-- The text `n` names the path `p`; there may be slashes before it. -/
def Spells (n : Key) (p : Path) : Prop := p ≠ [] ∧ (∀ x ∈ p, NodeName x) ∧ ∃ i, n = List.replicate i '/' ++ p.text

/-- What a call of several steps does when it finds the bucket `b`, whatever reliable events happen: after at most `n` requests
    it returns, and then `P` holds of the result and the bucket; or it reports an error because a request has failed, or
    it waits for an answer, and then `Q` holds of the bucket. -/
def S3M.Ends {α : Type} (x : S3M α) (n : Nat) (b : Bucket) (P : α → Bucket → Prop) (Q : Bucket → Prop) : Prop :=
  ∀ es : List Event, (∀ e ∈ es, e.Reliable) →
    (∃ a es' b', es' <:+ es ∧ es.length ≤ n + es'.length ∧ x ⟨es, b⟩ = (some (.ok a), ⟨es', b'⟩) ∧ P a b') ∨
    (∃ es' b', x ⟨es, b⟩ = (some (.throw .runtimeError), ⟨es', b'⟩) ∧ Q b' ∧ ∃ e ∈ es, ∃ kind, e.error kind ≠ none) ∨
    (es.length < n ∧ ∃ b', x ⟨es, b⟩ = (none, ⟨[], b'⟩) ∧ Q b')

/-- A container on S3: its name in the bucket and the version of zarr -/
structure S3Container where
  root : Key
  format : Int

namespace S3Container

variable (C : S3Container)

def layout : Layout := .of true C.format

/-- The name in the bucket of the node at a path -/
def key (p : Path) : Key := if p = [] then C.root else joinKey C.root p.text

/-- The object for the group at a path, opened in a mode -/
def group (g : Path) (m : FileMode) : S3PyGroup := ⟨⟨C.key g, m⟩, C.format⟩

/-- `.attrs` of the object for the group at a path: the root is a file. -/
def attrsOf (g : Path) (m : FileMode) : S3Target :=
  if g = [] then .file (C.group g m).handle else .group (C.group g m).handle

/-- Zarr of version 2 or 3 -/
def Ok : Prop := C.format = 2 ∨ C.format = 3

end S3Container

/-- The attributes of a node: in an object of their own, which may be missing, or (zarr v3) in the document. -/
def RawBucket.HasAttributes (R : RawBucket) (name : Key) (La : Layout) (A : AttrMap) : Prop :=
  match La with
  | .v3 => ∃ j, R.HasText (docKey name "zarr.json") j ∧
      ((j.find "attributes" = none ∧ A = fun _ => none) ∨ ∃ b, j.find "attributes" = some b ∧ b.IsObject ∧ A = b.find)
  | La => (R.content (docKey name La.file) = none ∧ A = fun _ => none) ∨
      ∃ j, R.HasText (docKey name La.file) j ∧ j.IsObject ∧ A = j.find

/-- A document says that `name` is a group of zarr. -/
def RawBucket.SaysGroup (R : RawBucket) (name : Key) : Layout → Prop
  | .v2 => R.content (docKey name "zarr.json") = none ∧
      ∃ j, R.HasText (docKey name ".zgroup") j ∧ j.find "zarr_format" = some (.int 2)
  | .v3 => ∃ j, R.HasText (docKey name "zarr.json") j ∧ j.find "zarr_format" = some (.int 3) ∧
      j.find "node_type" = some (.str "group")
  | .n5 => False

/-- The bucket has, byte by byte, a container of zarr with the tree `T` at the name `C.root`, written by whatever program. -/
structure RawBucket.HoldsContainer {Ty : ElemTypes} (R : RawBucket) (C : S3Container) (L : Libs) (T : Tree Ty) : Prop where
  /-- one object for a key -/
  ordered : R.Pairwise fun p q => keyLt p.1 q.1 = true
  /-- the tree: a root, and every other node is in a group -/
  root : T.IsGroup []
  closed : ∀ p n, T (p ++ [n]) ≠ none → T.IsGroup p
  names : ∀ p n, T (p ++ [n]) ≠ none → NodeName n
  group : ∀ p A, T p = some (.group A) → R.SaysGroup (C.key p) C.layout ∧ R.HasAttributes (C.key p) C.layout A
  /-- the arrays are of real numbers -/
  array : ∀ p x, T p = some (.array x) → x.dtype.isComplex = false ∧ ∃ a, x.IsDescribed a C.layout ∧
    R.HoldsArray (C.key p) C.layout a (Ty.elem x.dtype) (L.codec (Ty.elem x.dtype).size a.compression) x.fill x.content ∧
    R.NoGroup (C.key p) C.layout ∧ R.HasAttributes (C.key p) C.layout x.attrs
  /-- nothing else is in the groups than documents, and what is below the names of the nodes in them -/
  nothing : ∀ p k, T.IsGroup p → R.content (dirPrefix (C.key p) ++ k) ≠ none →
    (∃ n ∈ documentFiles, k = n.toList) ∨ ∃ n t, T (p ++ [n]) ≠ none ∧ k = n.toList ++ '/' :: t

/-- The life of a container on S3: the tree `T` that it represents, the open dataset objects `os` with the paths of their arrays,
    and the bucket.  Every step is a call that succeeded, from any group, in any mode, in any process.  The events of a call
    are `Reliable`. -/
inductive S3History (C : S3Container) (L : Libs) (Ty : ElemTypes) : Tree Ty → List (Path × S3DatasetObj) → Bucket → Prop
  /-- `S3File(...)` where nothing is below the name, or in mode `w` (and the service deletes what it is told to) -/
  | start {a : S3FileArgs} {b : Bucket} {es : List Event} {f : S3PyFile} {w : World} : b.WF →
      (∀ e ∈ es, e.Reliable ∧ e.failed = []) → a.name = C.root → a.zarrFormat = C.format →
      ¬ b.Exists C.root ∨ a.mode = "w" → s3File a ⟨es, b⟩ = (some (.ok f), w) →
      S3History C L Ty (fun p => if p = [] then some (.group fun _ => none) else none) [] w.bucket
  /-- the container is one of another program -/
  | found {R : RawBucket} {T : Tree Ty} : R.HoldsContainer C L T → C.Ok → S3History C L Ty T [] R.view
  /-- `create_group` in a group of the container -/
  | createGroup {T os b} {es : List Event} {g ks : Path} {n : String} {m : FileMode} {g' : S3PyGroup} {w : World} :
      S3History C L Ty T os b → (∀ e ∈ es, e.Reliable) → T.IsGroup (g ++ ks) → NodeName n →
      (C.group g m).createGroup (Path.text (ks ++ [n])) ⟨es, b⟩ = (some (.ok g'), w) →
      S3History C L Ty (T.add (g ++ ks ++ [n]) (.group fun _ => none)) os w.bucket
  /-- `require_group` of a name that was not there -/
  | requireGroup {T os b} {es : List Event} {g ks : Path} {n : String} {m : FileMode} {g' : S3PyGroup} {w : World} :
      S3History C L Ty T os b → (∀ e ∈ es, e.Reliable) → T.IsGroup (g ++ ks) → NodeName n →
      T (g ++ ks ++ [n]) = none →
      (C.group g m).requireGroup (Path.text (ks ++ [n])) ⟨es, b⟩ = (some (.ok g'), w) →
      S3History C L Ty (T.add (g ++ ks ++ [n]) (.group fun _ => none)) os w.bucket
  /-- `create_dataset`; groups that lead to it are created if they are missing -/
  | createArray {T os b} {es : List Event} {g key : Path} {m : FileMode} {a : PyCreateArgs} {x : ArrayItem Ty}
      {o : S3DatasetObj} {w : World} :
      S3History C L Ty T os b → (∀ e ∈ es, e.Reliable) → T.IsGroup g → key ≠ [] → (∀ n ∈ key, NodeName n) →
      a.Asks C.layout x → (C.group g m).createDataset key.text a ⟨es, b⟩ = (some (.ok o), w) →
      S3History C L Ty (T.add (g ++ key) (.array x)) ((g ++ key, o) :: os) w.bucket
  /-- `require_dataset` of a name that was not there -/
  | requireArray {T os b} {es : List Event} {g ks : Path} {n : String} {m : FileMode} {a : PyCreateArgs} {x : ArrayItem Ty}
      {o : S3DatasetObj} {w : World} :
      S3History C L Ty T os b → (∀ e ∈ es, e.Reliable) → T.IsGroup (g ++ ks) → NodeName n →
      T (g ++ ks ++ [n]) = none → a.Asks C.layout x →
      (C.group g m).requireDataset (Path.text (ks ++ [n])) a ⟨es, b⟩ = (some (.ok o), w) →
      S3History C L Ty (T.add (g ++ ks ++ [n]) (.array x)) ((g ++ ks ++ [n], o) :: os) w.bucket
  /-- an array is opened: `group[name]` -/
  | opened {T os b} {es : List Event} {g p : Path} {n : Key} {m : FileMode} {x : ArrayItem Ty} {o : S3DatasetObj} {w : World} :
      S3History C L Ty T os b → (∀ e ∈ es, e.Reliable) → T.IsGroup g → Spells n p → T (g ++ p) = some (.array x) →
      (C.group g m).item n ⟨es, b⟩ = (some (.ok (.inr o)), w) → S3History C L Ty T ((g ++ p, o) :: os) w.bucket
  /-- objects are destroyed -/
  | closed {T os os' b} : S3History C L Ty T os b → (∀ e ∈ os', e ∈ os) → S3History C L Ty T os' b
  /-- `del group[name]` (and the service deletes what it is told to) -/
  | deleted {T os b} {es : List Event} {g p : Path} {n : Key} {m : FileMode} {w : World} :
      S3History C L Ty T os b → (∀ e ∈ es, e.Reliable ∧ e.failed = []) → T.IsGroup g → Spells n p → T.Clear (g ++ p) →
      (C.group g m).delItem n L Ty ⟨es, b⟩ = (some (.ok ()), w) →
      S3History C L Ty (T.prune (g ++ p)) (os.filter fun e => ¬ g ++ p <+: e.1) w.bucket
  /-- a successful modifying call, with any schedule, on an object that is not read-only -/
  | wrote {T os b b'} {p : Path} {o : S3DatasetObj} {x : ArrayItem Ty} {d : AnyDataset (Ty.elem x.dtype)}
      {w : Write (Ty.elem x.dtype).T} : S3History C L Ty T os b → (p, o) ∈ os → T p = some (.array x) →
      o.obj.handle.mode ≠ .r → o.typed L (Ty.cast x.dtype) = .ok d → d.PerformsS3 (C.key p) w b b' →
      S3History C L Ty (T.put p (.array { x with content := override x.content w.off w.shape w.val })) os b'
  /-- a change of the attributes of an array -/
  | arrayAttrs {T os b} {es : List Event} {p : Path} {o : S3DatasetObj} {x : ArrayItem Ty} {op : AttrOp} {w : World} :
      S3History C L Ty T os b → (∀ e ∈ es, e.Reliable) → (p, o) ∈ os → T p = some (.array x) → op.Valid →
      (S3Target.dataset ⟨o.name, o.obj.handle⟩).change op ⟨es, b⟩ = (some (.ok ()), w) →
      S3History C L Ty (T.put p (.array { x with attrs := op.apply x.attrs })) os w.bucket
  /-- a change of the attributes of a group -/
  | groupAttrs {T os b} {es : List Event} {g : Path} {m : FileMode} {A : AttrMap} {op : AttrOp} {w : World} :
      S3History C L Ty T os b → (∀ e ∈ es, e.Reliable) → T g = some (.group A) → op.Valid →
      (C.attrsOf g m).change op ⟨es, b⟩ = (some (.ok ()), w) →
      S3History C L Ty (T.put g (.group (op.apply A))) os w.bucket
  /-- anything that leaves the objects of the container alone -/
  | elsewhere {T os b b'} : S3History C L Ty T os b → b'.WF → (∀ k, dirPrefix C.root <+: k → b'.get k = b.get k) →
      S3History C L Ty T os b'

end Z5
