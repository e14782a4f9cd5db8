import Verif.Model.Attributes
import Verif.Model.Prog
import Verif.Model.Util

/-!
# An object store, and the handles of `s3/handle.hxx`

The service keeps objects under keys.  A client sends one request after the other; for each of them an
`Event` says what the service does with it: others may have changed the bucket meanwhile, the request may
fail (before or after it had its effect), pages of listings may have any size, and the deletion of single
objects of a batch may fail.  Everything the code does is a function of the list of these events, so that
theorems for all lists of events are theorems for all behaviours of the service.

Simplifications: the bucket is fixed and exists; clients, credentials and the request body stream are not
modelled; response bodies are complete (a truncated one is an error); JSON documents are values
(`Model/Json.lean`).
-/

namespace Z5

/-- the content of an object -/
inductive S3Obj where
  /-- JSON text -/
  | doc (j : Json)
  | file (b : Bytes)

/-- The order of keys: that of their code points (as of their UTF-8 encodings). -/
def keyLt : Key → Key → Bool
  | _, [] => false
  | [], _ :: _ => true
  | a :: k, b :: l => decide (a.toNat < b.toNat) || (a == b && keyLt k l)

/-- The objects of a bucket, in the order of their keys -/
abbrev Bucket := List (Key × S3Obj)

namespace Bucket

/-- in order, and one object for a key -/
def WF (b : Bucket) : Prop := b.Pairwise fun p q => keyLt p.1 q.1 = true

/-- the keys -/
def keys (b : Bucket) : List Key := b.map (·.1)

/-- the object of a key -/
def get (b : Bucket) (k : Key) : Option S3Obj := (b.find? fun p => p.1 == k).map (·.2)

/-- the bucket without these objects -/
def erase (b : Bucket) (ks : List Key) : Bucket := b.filter fun p => !ks.contains p.1

/-- the bucket with the object of `k` replaced or added -/
def put (b : Bucket) (k : Key) (o : S3Obj) : Bucket :=
  b.filter (fun p => keyLt p.1 k) ++ (k, o) :: b.filter (fun p => keyLt k p.1)

end Bucket

/-- an error of a request: the object does not exist (`detail::isNotFound`, s3/handle.hxx:164-168), or any
    other -/
inductive S3Err where
  | notFound
  | other
  deriving DecidableEq, Repr

/-- the kinds of requests -/
inductive ReqKind where
  | get | head | put | delete | deleteBatch | list
  deriving DecidableEq, Repr

/-- What the service does with a request. -/
structure Event where
  /-- what others have changed since the last request -/
  change : Bucket → Bucket := id
  /-- the error, if the request is of this kind, and whether the request had its effect nevertheless -/
  error : ReqKind → Option (S3Err × Bool) := fun _ => none
  /-- how many entries the page of a listing holds -/
  size : Nat := 1000
  /-- objects of a batch that are not deleted.  The service reports them in the body of the response, which is
      a success all the same. -/
  failed : List Key := []

/-- The bucket, and what will happen -/
structure World where
  events : List Event
  bucket : Bucket

/-- Code that sends requests: what it returns or throws; nothing if it still waits for a response. -/
def S3M (α : Type) := World → Option (Res α) × World

instance : Monad S3M where
  pure a := fun w => (some (.ok a), w)
  bind x f := fun w =>
    match x w with
    | (some (.ok a), w) => f a w
    | (some (.throw e), w) => (some (.throw e), w)
    | (some .ub, w) => (some .ub, w)
    | (none, w) => (none, w)

namespace S3M

/-- a computation without requests -/
def lift {α : Type} (r : Res α) : S3M α := fun w => (some r, w)

end S3M

/-- A request of this kind and with the effect `f` is answered. -/
def Event.serve {α : Type} (e : Event) (kind : ReqKind) (f : Event → Bucket → Except S3Err α × Bucket) (b : Bucket) :
    Except S3Err α × Bucket :=
  match e.error kind with
  | some (err, applied) => (.error err, if applied then (f e (e.change b)).2 else e.change b)
  | none => f e (e.change b)

/-- send a request and wait for the response -/
def request {α : Type} (kind : ReqKind) (f : Event → Bucket → Except S3Err α × Bucket) :
    S3M (Except S3Err α) := fun w =>
  match w.events with
  | [] => (none, w)
  | e :: es =>
    let (r, b) := e.serve kind f w.bucket
    (some (.ok r), ⟨es, b⟩)

/-! ### The requests -/

/-- `GetObject` -/
def getReq (k : Key) : Event → Bucket → Except S3Err S3Obj × Bucket := fun _ b =>
  match b.get k with
  | some o => (.ok o, b)
  | none => (.error .notFound, b)

/-- `HeadObject` -/
def headReq (k : Key) : Event → Bucket → Except S3Err Unit × Bucket := fun _ b =>
  match b.get k with
  | some _ => (.ok (), b)
  | none => (.error .notFound, b)

/-- `PutObject` -/
def putReq (k : Key) (o : S3Obj) : Event → Bucket → Except S3Err Unit × Bucket := fun _ b => (.ok (), b.put k o)

/-- `DeleteObject`: no error if there is none -/
def deleteReq (k : Key) : Event → Bucket → Except S3Err Unit × Bucket := fun _ b => (.ok (), b.erase [k])

/-- `DeleteObjects`: at most 1000; see `Event.failed` -/
def deleteObjectsReq (ks : List Key) : Event → Bucket → Except S3Err Unit × Bucket := fun e b =>
  if ks.length > 1000 then (.error .other, b)
  else (.ok (), b.erase (ks.filter fun k => !e.failed.contains k))

/-- An entry of a listing: an object, or the objects whose keys begin alike up to a delimiter -/
inductive ListEntry where
  | key (k : Key)
  | pre (p : Key)
  deriving DecidableEq, Repr

namespace ListEntry

/-- the text, by which the entries are ordered -/
def text : ListEntry → Key
  | key k => k
  | pre p => p

/-- `GetContents` -/
def key? : ListEntry → Option Key
  | key k => some k
  | pre _ => none

/-- `GetCommonPrefixes` -/
def pre? : ListEntry → Option Key
  | key _ => none
  | pre p => some p

end ListEntry

/-- The entry under which an object is listed, with the delimiter `/` or without one -/
def entryOf (pfx : Key) (delim : Bool) (k : Key) : ListEntry :=
  if delim && (k.drop pfx.length).contains '/' then
    .pre (pfx ++ (k.drop pfx.length).takeWhile (· ≠ '/') ++ ['/'])
  else .key k

/-- The listing has gone past the key `k` when it has returned the entry `t`. -/
def passed (t : ListEntry) (k : Key) : Bool :=
  !keyLt t.text k || (t.pre?.isSome && t.text.isPrefixOf k)

/-- every element once -/
def distinct {α : Type} [DecidableEq α] : List α → List α
  | [] => []
  | a :: l => if a ∈ l then distinct l else a :: distinct l

/-- The entries that are still to be returned.  The continuation token is the last entry that was. -/
def remaining (pfx : Key) (delim : Bool) (token : Option ListEntry) (b : Bucket) : List ListEntry :=
  distinct ((b.keys.filter fun k => pfx.isPrefixOf k && !token.any fun t => passed t k).map (entryOf pfx delim))

/-- a page -/
structure ListPage where
  entries : List ListEntry
  truncated : Bool
  next : Option ListEntry

/-- `ListObjectsV2` -/
def listReq (pfx : Key) (delim : Bool) (maxKeys : Option Nat) (token : Option ListEntry) :
    Event → Bucket → Except S3Err ListPage × Bucket := fun e b =>
  let rest := remaining pfx delim token b
  let n := match maxKeys with
    | none => e.size
    | some m => min e.size m
  (.ok ⟨rest.take n, decide (n < rest.length), (rest.take n).getLast?.or token⟩, b)

/-! ### The functions of `s3/handle.hxx` -/

/-- s3/handle.hxx:277-288 and 379-395: the loop over the pages, until one is not truncated or a request fails:
    the entries of the pages, and whether all have been received. -/
def listLoop (pfx : Key) (delim : Bool) :
    List Event → Bucket → Option ListEntry → List ListEntry → Option (Res (List ListEntry × Bool)) × World
  | [], b, _, _ => (none, ⟨[], b⟩)
  | e :: es, b, token, out =>
    match e.serve .list (listReq pfx delim none token) b with
    | (.error _, b) => (some (.ok (out, false)), ⟨es, b⟩)
    | (.ok page, b) =>
      if page.truncated then listLoop pfx delim es b page.next (out ++ page.entries)
      else (some (.ok (out ++ page.entries, true)), ⟨es, b⟩)

def listPages (pfx : Key) (delim : Bool) : S3M (List ListEntry × Bool) := fun w =>
  listLoop pfx delim w.events w.bucket none []

/-- s3/handle.hxx:270-289 `listAllKeys`, with an empty `out` -/
def listAllKeys (pfx : Key) : S3M (List Key) := do
  let (entries, complete) ← listPages pfx false
  if complete then return entries.filterMap (·.key?)
  else S3M.lift (.throw .runtimeError)

/-- s3/handle.hxx:296 -/
def batchSize : Nat := 1000

/-- s3/handle.hxx:297-312: the loop over the batches -/
def deleteFrom (keys : List Key) (start : Nat) : S3M Unit :=
  if start < keys.length then do
    match ← request .deleteBatch (deleteObjectsReq ((keys.drop start).take (min (start + batchSize) keys.length - start))) with
    | .error _ => S3M.lift (.throw .runtimeError)
    | .ok () => deleteFrom keys (start + batchSize)
  else return ()
termination_by keys.length - start
decreasing_by (unfold batchSize; omega)

/-- s3/handle.hxx:292-313 `deletePrefix` -/
def deletePrefix (pfx : Key) : S3M Unit := do
  let keys ← listAllKeys pfx
  deleteFrom keys 0

/-- s3/handle.hxx:249-255 `objectExists` -/
def objectExists (k : Key) : S3M Bool := do
  match ← request .head (headReq k) with
  | .ok () => return true
  | .error _ => return false

/-- s3/handle.hxx:178-221 `getObject` -/
def getObject (k : Key) : S3M (Option S3Obj) := do
  match ← request .get (getReq k) with
  | .ok o => return some o
  | .error .notFound => return none
  | .error .other => S3M.lift (.throw .runtimeError)

/-- s3/handle.hxx:236-247 `putObject` -/
def putObject (k : Key) (o : S3Obj) : S3M Unit := do
  match ← request .put (putReq k o) with
  | .ok () => return ()
  | .error _ => S3M.lift (.throw .runtimeError)

/-- s3/handle.hxx:257-267 `deleteObject` -/
def deleteObject (k : Key) : S3M Unit := do
  match ← request .delete (deleteReq k) with
  | .ok () => return ()
  | .error .notFound => return ()
  | .error .other => S3M.lift (.throw .runtimeError)

/-- s3/handle.hxx:68-70 `joinKey` -/
def joinKey (base name : Key) : Key := if base.isEmpty then name else base ++ '/' :: name

/-- `nameInBucket_.empty() ? "" : nameInBucket_ + "/"`, s3/handle.hxx:364, 373, 412 -/
def dirPrefix (name : Key) : Key := if name.isEmpty then [] else name ++ ['/']

/-- s3/handle.hxx:347-359 `anyObjectWithPrefix` -/
def anyObjectWithPrefix (pfx : Key) : S3M Bool := do
  match ← request .list (listReq pfx false (some 1) none) with
  | .error _ => S3M.lift (.throw .runtimeError)
  | .ok page => return decide (page.entries.length > 0)

/-- A handle of a file or group: s3/handle.hxx:455-553 (the name in the bucket and the mode) -/
structure S3Handle where
  name : Key
  mode : FileMode

/-- s3/handle.hxx:513-519, 559-568: the handle of a group or dataset in a group -/
def S3Handle.child (h : S3Handle) (key : Key) : S3Handle :=
  ⟨if h.name.isEmpty then key else h.name ++ '/' :: key, h.mode⟩

/-- s3/handle.hxx:362-366 `existsImpl` -/
def S3Handle.exist (h : S3Handle) : S3M Bool := anyObjectWithPrefix (dirPrefix h.name)

/-- s3/handle.hxx:384-392: the names of the common prefixes; `ub` (an index out of range) does not happen -/
def prefixNames : List Key → Res (List Key)
  | [] => .ok []
  | p :: ps =>
    if p.getLast? = some '/' then
      match (split p ['/']).map List.reverse with
      | some (_ :: name :: _) => do return name :: (← prefixNames ps)
      | _ => .ub
    else prefixNames ps

/-- s3/handle.hxx:368-396 `keysImpl`: errors end the loop. -/
def S3Handle.keys (h : S3Handle) : S3M (List Key) := do
  let (entries, _) ← listPages (dirPrefix h.name) true
  S3M.lift (prefixNames (entries.filterMap (·.pre?)))

/-- s3/handle.hxx:398-407 `inImpl` -/
def S3Handle.has (h : S3Handle) (name : Key) : S3M Bool := do
  if ← objectExists (joinKey h.name name) then return true
  else anyObjectWithPrefix (joinKey h.name name ++ ['/'])

/-- s3/handle.hxx:410-414 `removeImpl`, with the check of the mode: 492-498, 538-544, 607-613 -/
def S3Handle.remove (h : S3Handle) : S3M Unit := do
  if !h.mode.canWrite then S3M.lift (.throw .invalidArgument)
  else deletePrefix (dirPrefix h.name)

end Z5
