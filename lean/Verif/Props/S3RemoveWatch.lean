import Verif.Props.S3

/-!
# Removal on S3 while others change what is beside it (C50)
-/

namespace Z5
open Spec

/-- From `w` to `w'` the object with the key `k` has changed by what others did to it (`g`), and by nothing else. -/
def World.Follows (g : Event → Option S3Obj → Option S3Obj) (k : Key) (w w' : World) : Prop :=
  ∃ used, w.events = used ++ w'.events ∧ w'.bucket.get k = used.foldl (fun o e => g e o) (w.bucket.get k)

/-- What others do to the object with the key `k` is `g`, whatever else is in the bucket. -/
def World.Does (g : Event → Option S3Obj → Option S3Obj) (k : Key) (w : World) : Prop :=
  ∀ e ∈ w.events, ∀ b : Bucket, (e.change b).get k = g e (b.get k)

variable {g : Event → Option S3Obj → Option S3Obj} {k : Key}

theorem World.Follows.refl (w : World) : w.Follows g k w := ⟨[], rfl, rfl⟩

theorem World.Follows.trans {w w' w'' : World} (h : w.Follows g k w') (h' : w'.Follows g k w'') : w.Follows g k w'' := by
  obtain ⟨u, e1, e2⟩ := h
  obtain ⟨u', f1, f2⟩ := h'
  exact ⟨u ++ u', by rw [e1, f1, List.append_assoc], by rw [f2, e2, List.foldl_append]⟩

theorem World.Follows.does {w w' : World} (h : w.Follows g k w') (hd : w.Does g k) : w'.Does g k := fun e he => by
  obtain ⟨u, e1, _⟩ := h
  exact hd e (by rw [e1]; exact List.mem_append_right _ he)

/-- the effect of a served request -/
theorem serve_follows {α : Type} {kind : ReqKind} {f : Event → Bucket → Except S3Err α × Bucket} (hf : ∀ e b, (f e b).2.get k = b.get k)
    {e : Event} {b : Bucket} (he : (e.change b).get k = g e (b.get k)) : (e.serve kind f b).2.get k = g e (b.get k) := by
  unfold Event.serve
  split
  · split
    · rw [hf, he]
    · exact he
  · rw [hf, he]

theorem request_follows {α : Type} {kind : ReqKind} {f : Event → Bucket → Except S3Err α × Bucket} (hf : ∀ e b, (f e b).2.get k = b.get k)
    {w : World} (hd : w.Does g k) : w.Follows g k (request kind f w).2 := by
  obtain ⟨es, b⟩ := w
  cases es with
  | nil => exact .refl _
  | cons e es => exact ⟨[e], rfl, serve_follows hf (hd e List.mem_cons_self b)⟩

theorem bind_follows {α β : Type} {x : S3M α} {K : α → S3M β} {w : World} (hx : w.Follows g k (x w).2)
    (hK : ∀ a w', x w = (some (.ok a), w') → w'.Follows g k (K a w').2) : w.Follows g k ((x >>= K) w).2 := by
  rw [S3M.bind_eq]
  rcases h : x w with ⟨_ | r, w'⟩
  · rw [h] at hx; exact hx
  · rw [h] at hx
    cases r with
    | ok a => exact hx.trans (hK a w' h)
    | throw _ => exact hx
    | ub => exact hx

theorem listLoop_follows {pfx : Key} {delim : Bool} : ∀ (es : List Event) (b : Bucket) (t : Option ListEntry) (out : List ListEntry),
    World.Does g k ⟨es, b⟩ → World.Follows g k ⟨es, b⟩ (listLoop pfx delim es b t out).2 := by
  intro es
  induction es with
  | nil => intro b t out _; exact .refl _
  | cons e es ih =>
    intro b t out hd
    have hs := serve_follows (kind := .list) (f := listReq pfx delim none t) (fun _ _ => rfl) (hd e List.mem_cons_self b)
    unfold listLoop
    rcases hr : e.serve .list (listReq pfx delim none t) b with ⟨_ | page, b'⟩
    · rw [hr] at hs
      exact ⟨[e], rfl, hs⟩
    · rw [hr] at hs
      have h1 : World.Follows g k ⟨e :: es, b⟩ ⟨es, b'⟩ := ⟨[e], rfl, hs⟩
      dsimp only
      split
      · exact h1.trans (ih b' _ _ (h1.does hd))
      · exact h1

theorem listAllKeys_follows {pfx : Key} {w : World} (hd : w.Does g k) : w.Follows g k (listAllKeys pfx w).2 := by
  unfold listAllKeys
  refine bind_follows (listLoop_follows w.events w.bucket none [] hd) fun a w' _ => ?_
  obtain ⟨entries, complete⟩ := a
  cases complete <;> exact .refl _

theorem deleteFrom_follows {keys : List Key} (hk : k ∉ keys) (start : Nat) : ∀ w : World, w.Does g k → w.Follows g k (deleteFrom keys start w).2 := by
  induction start using deleteFrom.induct keys with
  | case1 start h ih =>
    intro w hd
    unfold deleteFrom
    rw [if_pos h]
    have hx := request_follows (kind := .deleteBatch)
      (f := deleteObjectsReq ((keys.drop start).take (min (start + batchSize) keys.length - start))) (fun e b => ?_) hd
    · refine bind_follows hx fun r w' hr => ?_
      rw [hr] at hx
      cases r with
      | error _ => exact .refl _
      | ok _ => exact ih w' (hx.does hd)
    · unfold deleteObjectsReq
      split
      · rfl
      · exact get_erase fun hm => hk (List.mem_of_mem_drop (List.mem_of_mem_take (List.mem_filter.1 hm).1))
  | case2 start h =>
    intro w hd
    unfold deleteFrom
    rw [if_neg h]
    exact .refl _

/-- **C50, changes beside.**  While a file, group or dataset is removed, others change an object under another name (`g`).  However the removal ends, the
object is then what the others have made of it: their changes are neither lost nor undone. -/
theorem c50_others_changes (h : S3Handle) {w : World} (hw : World.Ok w) (hk : ¬ dirPrefix h.name <+: k)
    (hg : ∀ e ∈ w.events, ∀ b : Bucket, (e.change b).get k = g e (b.get k)) :
    ∃ used, w.events = used ++ (h.remove w).2.events ∧ (h.remove w).2.bucket.get k = used.foldl (fun o e => g e o) (w.bucket.get k) := by
  show w.Follows g k (h.remove w).2
  unfold S3Handle.remove
  cases hm : h.mode.canWrite with
  | false => exact .refl _
  | true =>
    show w.Follows g k ((listAllKeys (dirPrefix h.name) >>= fun keys => deleteFrom keys 0) w).2
    have hl := listAllKeys_follows (pfx := dirPrefix h.name) (w := w) hg
    refine bind_follows hl fun keys w' hr => ?_
    rw [hr] at hl
    exact deleteFrom_follows (fun hm => hk ((c50_listing hw hr).2.2 k hm).1) 0 w' (hl.does hg)

/-- The hypotheses of `c50_others_changes` hold: before every request that removes `a`, another client writes `ab`. -/
example : let e : Event := { change := fun b => b.put "ab".toList (.doc (.int 1)) }
    let w : World := ⟨[e, e, e], [("a/b".toList, .file []), ("ab".toList, .doc (.int 0))]⟩
    World.Ok w ∧ ¬ dirPrefix "a".toList <+: "ab".toList ∧ (∀ e ∈ w.events, ∀ b : Bucket, (e.change b).get "ab".toList = some (.doc (.int 1))) ∧
    ∃ used, w.events = used ++ (S3Handle.remove ⟨"a".toList, .a⟩ w).2.events ∧
      (S3Handle.remove ⟨"a".toList, .a⟩ w).2.bucket.get "ab".toList = used.foldl (fun _ _ => some (.doc (.int 1))) (some (.doc (.int 0))) := by
  intro e w
  have he : ∀ e' ∈ w.events, e' = e := fun e' h => by
    simp only [w, List.mem_cons, List.not_mem_nil, or_false, or_self] at h
    exact h
  have hw : World.Ok w := ⟨by unfold Bucket.WF; decide, fun e' h b hb => by rw [he e' h]; exact put_wf hb⟩
  have hg : ∀ e ∈ w.events, ∀ b : Bucket, (e.change b).get "ab".toList = some (.doc (.int 1)) := fun e' h b => by
    rw [he e' h]; exact get_put_self
  exact ⟨hw, by decide, hg, c50_others_changes (g := fun _ _ => some (.doc (.int 1))) ⟨"a".toList, .a⟩ hw (by decide) hg⟩

end Z5
