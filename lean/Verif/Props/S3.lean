import Verif.Proofs.S3Remove
import Verif.Props.Split

/-!
# C50: listing and deletion in an object store

For every behaviour of the service and of others who use the bucket: the theorems quantify over the list of
events of the world.
-/

namespace Z5
open Spec

/-! ### Listing -/

theorem listAllKeys_ok {pfx : Key} {w w' : World} {keys : List Key} (h : listAllKeys pfx w = (some (.ok keys), w')) :
    ∃ entries, listLoop pfx false w.events w.bucket none [] = (some (.ok (entries, true)), w') ∧
      keys = entries.filterMap (·.key?) := by
  unfold listAllKeys at h
  obtain ⟨⟨entries, complete⟩, w1, h1, h2⟩ := S3M.bind_ok h
  cases complete with
  | false => cases h2
  | true =>
    have h2' : ((some (.ok (entries.filterMap (·.key?))), w1) : Option (Res (List Key)) × World)
      = (some (.ok keys), w') := h2
    injection h2' with h4 h3
    injection h4 with h4
    injection h4 with h4
    subst h3
    exact ⟨entries, h1, h4.symm⟩

theorem entryOf_false (pfx k : Key) : entryOf pfx false k = .key k := rfl

/-- **C50.**  A complete listing of a prefix: every object under the prefix that is there all the time is listed;
    what is listed is under the prefix, and was there; nothing is listed twice.  With pages of any size, and
    whatever others do meanwhile. -/
theorem c50_listing {pfx : Key} {w w' : World} (hw : World.Ok w) {keys : List Key}
    (h : listAllKeys pfx w = (some (.ok keys), w')) :
    keys.Nodup ∧ (∀ k, pfx <+: k → Stays k w → k ∈ keys) ∧
      (∀ k ∈ keys, pfx <+: k ∧ ¬ Never (· = k) w) := by
  obtain ⟨entries, h1, rfl⟩ := listAllKeys_ok h
  obtain ⟨E, h2, h3, _, h5, h6⟩ := listLoop_spec pfx false w.events w.bucket none [] hw.1 hw.2
    (fun t ht => by cases ht) h1
  rw [List.nil_append] at h2
  subst h2
  refine ⟨?_, ?_, ?_⟩
  · refine (h3.filterMap (S := fun a b : Key => a ≠ b) (·.key?) ?_)
    intro e e' hlt k hk k' hk' hkk
    cases e with
    | pre _ => cases hk
    | key _ =>
      cases e' with
      | pre _ => cases hk'
      | key _ =>
        cases hk
        cases hk'
        exact keyLt_ne hlt hkk
  · intro k hk hs
    refine List.mem_filterMap.2 ⟨.key k, ?_, rfl⟩
    exact h6 k hk (fun t ht => by cases ht) (seenBy_inv (P := fun b => k ∈ b.keys) hs.2 hs.1)
  · intro k hk
    obtain ⟨e, he, hek⟩ := List.mem_filterMap.1 hk
    obtain ⟨b', hb', k', hk', hp, rfl⟩ := h5 e he
    cases hek
    refine ⟨hp, fun hn => ?_⟩
    exact seenBy_inv (P := fun b => ∀ k'' ∈ b.keys, ¬ k'' = k) hn.2 hn.1 b' hb' k hk' rfl

/-- **C50**: if nobody else uses the bucket, the listing is exactly the keys under the prefix. -/
theorem c50_listing_exact {pfx : Key} {w w' : World} (hw : World.Ok w) (hq : World.Quiet w) {keys : List Key}
    (h : listAllKeys pfx w = (some (.ok keys), w')) :
    keys.Nodup ∧ ∀ k, k ∈ keys ↔ pfx <+: k ∧ k ∈ w.bucket.keys := by
  obtain ⟨h1, h2, h3⟩ := c50_listing hw h
  refine ⟨h1, fun k => ⟨fun hk => ⟨(h3 k hk).1, ?_⟩, fun ⟨hp, hk⟩ => h2 k hp ⟨hk, ?_⟩⟩⟩
  · apply Classical.byContradiction
    intro hn
    refine (h3 k hk).2 ⟨fun k' hk' e => hn (e ▸ hk'), fun e he b hb => ?_⟩
    rw [hq e he]
    exact hb
  · intro e he b hb
    rw [hq e he]
    exact hb

/-! ### Removal -/

theorem remove_ok {h : S3Handle} {w w' : World} (hr : h.remove w = (some (.ok ()), w')) :
    h.mode.canWrite = true ∧ ∃ keys w1, listAllKeys (dirPrefix h.name) w = (some (.ok keys), w1) ∧
      deleteFrom keys 0 w1 = (some (.ok ()), w') := by
  unfold S3Handle.remove at hr
  cases hm : h.mode.canWrite with
  | false =>
    rw [hm] at hr
    cases hr
  | true =>
    rw [hm] at hr
    exact ⟨rfl, S3M.bind_ok hr⟩

/-- **C50.**  When the removal of a file, group or dataset has succeeded, an object under its name is gone, unless
    others create it meanwhile, or the service reported that it could not delete it. -/
theorem c50_removed {h : S3Handle} {w w' : World} (hw : World.Ok w) (hr : h.remove w = (some (.ok ()), w'))
    {k : Key} (hk : dirPrefix h.name <+: k) (hn : NotCreated k w) (hf : ∀ e ∈ w.events, k ∉ e.failed) :
    w'.bucket.get k = none := by
  obtain ⟨_, keys, w1, h1, h2⟩ := remove_ok hr
  have hsuf : w1.events <:+ w.events := by
    have := (listAllKeys_keeps (pfx := dirPrefix h.name) (es := w.events) (P := fun _ => True)
      (fun _ _ _ _ => trivial) w List.suffix_rfl trivial).1
    rwa [h1] at this
  rw [get_none]
  refine deleteFrom_absent 0 (fun e he => hn e (hsuf.subset he)) (fun e he => hf e (hsuf.subset he)) ?_ h2
  obtain ⟨entries, h3, rfl⟩ := listAllKeys_ok h1
  obtain ⟨E, h4, _, _, _, h5⟩ := listLoop_spec (dirPrefix h.name) false w.events w.bucket none [] hw.1 hw.2
    (fun t ht => by cases ht) h3
  rw [List.nil_append] at h4
  subst h4
  by_cases hall : ∀ b' ∈ seenBy (dirPrefix h.name) false w.events w.bucket none, k ∈ b'.keys
  · left
    exact List.mem_filterMap.2 ⟨.key k, h5 k hk (fun t ht => by cases ht) hall, rfl⟩
  · right
    have hex : ∃ b' ∈ seenBy (dirPrefix h.name) false w.events w.bucket none, k ∉ b'.keys := by
      apply Classical.byContradiction
      intro hno
      refine hall fun b' hb' => ?_
      apply Classical.byContradiction
      exact fun hk' => hno ⟨b', hb', hk'⟩
    have := seenBy_last (P := fun b => k ∉ b.keys) (out := []) hn hex
    rwa [h3] at this

/-- **C50.**  However the removal ends (even if it fails, or never ends), objects under other names are left
    alone.  In particular under names that only begin alike, as `data2` for `data`. -/
theorem c50_others_kept (h : S3Handle) {w : World} (hw : World.Ok w) {k : Key} (hk : ¬ dirPrefix h.name <+: k)
    (hu : Untouched k w) : (h.remove w).2.bucket.get k = w.bucket.get k := by
  suffices hkeep : ∀ w1 : World, w1 = w →
      (h.remove w1).2.bucket.get k = w.bucket.get k from hkeep w rfl
  intro w1 hw1
  subst hw1
  unfold S3Handle.remove
  cases hm : h.mode.canWrite with
  | false => rfl
  | true =>
    show ((listAllKeys (dirPrefix h.name) >>= fun keys => deleteFrom keys 0) w1).2.bucket.get k = _
    have hkl := listAllKeys_keeps (pfx := dirPrefix h.name) (es := w1.events)
      (P := fun b => b.get k = w1.bucket.get k) (fun e he b hb => (hu e he b).trans hb) w1 List.suffix_rfl rfl
    rw [S3M.bind_eq]
    rcases hl : listAllKeys (dirPrefix h.name) w1 with ⟨_ | r, w2⟩
    · rw [hl] at hkl
      exact hkl.2
    · rw [hl] at hkl
      cases r with
      | throw _ => exact hkl.2
      | ub => exact hkl.2
      | ok keys =>
        have hp := (c50_listing hw hl).2.2
        refine (deleteFrom_keeps (keys := keys) (es := w1.events) (P := fun b => b.get k = w1.bucket.get k)
          (fun e he b hb => (hu e he b).trans hb) (fun ks hks b hb => ?_) 0 w2 hkl.1 hkl.2).2
        rw [get_erase (fun hm => hk (hp k (hks k hm)).1)]
        exact hb

/-- **C50**: if nobody else uses the bucket and the service reports no failure, the removal removes exactly the
    objects under the name. -/
theorem c50_remove_exact {h : S3Handle} {w w' : World} (hw : World.Ok w) (hq : World.Quiet w)
    (hf : ∀ e ∈ w.events, e.failed = []) (hr : h.remove w = (some (.ok ()), w')) (k : Key) :
    w'.bucket.get k = if dirPrefix h.name <+: k then none else w.bucket.get k := by
  split
  · rename_i hk
    refine c50_removed hw hr hk (fun e he b hb => ?_) (fun e he => ?_)
    · rw [hq e he]; exact hb
    · rw [hf e he]; exact List.not_mem_nil
  · rename_i hk
    have := c50_others_kept h hw hk (fun e he b => by rw [hq e he]; rfl)
    rwa [hr] at this

/-! ### Failures -/

theorem listLoop_reports {pfx : Key} {delim : Bool} :
    ∀ {es : List Event} {b : Bucket} {t : Option ListEntry} {out r : List ListEntry} {w' : World},
      listLoop pfx delim es b t out = (some (.ok (r, true)), w') →
      ∃ used, es = used ++ w'.events ∧ ∀ e ∈ used, e.error .list = none := by
  intro es
  induction es with
  | nil => intro b t out r w' h; cases h
  | cons e es ih =>
    intro b t out r w' h
    unfold listLoop at h
    rcases hs : e.serve .list (listReq pfx delim none t) b with ⟨_ | page, b'⟩
    · rw [hs] at h
      cases h
    · rw [hs] at h
      have herr := (serve_ok hs).1
      dsimp only at h
      split at h
      · obtain ⟨used, h1, h2⟩ := ih h
        exact ⟨e :: used, by rw [h1]; rfl, List.forall_mem_cons.2 ⟨herr, h2⟩⟩
      · injection h with _ h
        subst h
        exact ⟨[e], rfl, List.forall_mem_cons.2 ⟨herr, fun _ h => by cases h⟩⟩

theorem deleteFrom_reports {keys : List Key} (start : Nat) :
    ∀ {w w' : World}, deleteFrom keys start w = (some (.ok ()), w') →
      ∃ used, w.events = used ++ w'.events ∧ ∀ e ∈ used, e.error .deleteBatch = none := by
  induction start using deleteFrom.induct keys with
  | case1 start h ih =>
    intro w w' hrun
    unfold deleteFrom at hrun
    rw [if_pos h] at hrun
    obtain ⟨r, w1, h1, h2⟩ := S3M.bind_ok hrun
    obtain ⟨e, es', hwe, hs, hw1⟩ := request_ok h1
    cases r with
    | error _ => cases h2
    | ok u =>
      obtain ⟨used, h3, h4⟩ := ih h2
      refine ⟨e :: used, ?_, List.forall_mem_cons.2 ⟨(serve_ok hs).1, h4⟩⟩
      rw [hwe, ← hw1, h3]
      rfl
  | case2 start h =>
    intro w w' hrun
    unfold deleteFrom at hrun
    rw [if_neg h] at hrun
    cases hrun
    exact ⟨[], rfl, fun _ h => by cases h⟩

/-- **C50.**  If the removal succeeds, no request of it has failed: neither those for the listing, which come first,
    nor those for the deletion. -/
theorem c50_failures_reported {h : S3Handle} {w w' : World} (hr : h.remove w = (some (.ok ()), w')) :
    ∃ used₁ used₂, w.events = used₁ ++ used₂ ++ w'.events ∧ (∀ e ∈ used₁, e.error .list = none) ∧
      ∀ e ∈ used₂, e.error .deleteBatch = none := by
  obtain ⟨_, keys, w1, h1, h2⟩ := remove_ok hr
  obtain ⟨entries, h3, _⟩ := listAllKeys_ok h1
  obtain ⟨u1, h4, h5⟩ := listLoop_reports h3
  obtain ⟨u2, h6, h7⟩ := deleteFrom_reports 0 h2
  exact ⟨u1, u2, by rw [h4, h6, List.append_assoc], h5, h7⟩

/-- **C50, negation**: when the service cannot delete an object of a batch, it says so in a successful response,
    which the code does not look at: the removal succeeds, and the object is still there. -/
theorem c50_failed_object_counterexample : ∃ (h : S3Handle) (w w' : World), World.Ok w ∧ World.Quiet w ∧
    h.remove w = (some (.ok ()), w') ∧ dirPrefix h.name <+: "a/b".toList ∧ w'.bucket.get "a/b".toList ≠ none := by
  refine ⟨⟨"a".toList, .a⟩, ⟨[{}, { failed := ["a/b".toList] }], [("a/b".toList, .file [])]⟩,
    ⟨[], [("a/b".toList, .file [])]⟩, ⟨?_, ?_⟩, ?_, ?_, by decide, ?_⟩
  · exact List.pairwise_singleton _ _
  · intro e he b hb
    simp only [List.mem_cons, List.not_mem_nil, or_false] at he
    rcases he with rfl | rfl <;> exact hb
  · intro e he
    simp only [List.mem_cons, List.not_mem_nil, or_false] at he
    rcases he with rfl | rfl <;> rfl
  · refine (S3M.run_bind (x := listAllKeys "a/".toList) (f := fun keys => deleteFrom keys 0) (a := ["a/b".toList])
      (w1 := ⟨[{ failed := ["a/b".toList] }], [("a/b".toList, .file [])]⟩) rfl).trans ?_
    unfold deleteFrom
    rw [if_pos (by decide)]
    have hreq : request .deleteBatch (deleteObjectsReq
        ((["a/b".toList].drop 0).take (min (0 + batchSize) ["a/b".toList].length - 0)))
          ⟨[{ failed := ["a/b".toList] }], [("a/b".toList, .file [])]⟩
        = (some (.ok (.ok ())), ⟨[], [("a/b".toList, .file [])]⟩) := rfl
    refine (S3M.run_bind hreq).trans ?_
    show deleteFrom _ _ _ = _
    unfold deleteFrom
    rw [if_neg (by decide)]
    rfl
  · simp [Bucket.get]

/-! ### Termination -/

theorem nodup_length_le {α : Type} [DecidableEq α] : ∀ {l m : List α}, l.Nodup → (∀ x ∈ l, x ∈ m) → l.length ≤ m.length
  | [], _, _, _ => Nat.zero_le _
  | a :: l, m, hl, h => by
    rw [List.nodup_cons] at hl
    have ha : a ∈ m := h a List.mem_cons_self
    have := nodup_length_le (m := m.erase a) hl.2 fun x hx =>
      (List.mem_erase_of_ne (fun e => hl.1 (by rw [← e]; exact hx))).2 (h x (List.mem_cons_of_mem _ hx))
    rw [List.length_erase_of_mem ha] at this
    have := List.length_pos_of_mem ha
    simp only [List.length_cons]
    omega

theorem sorted_nodup {l : List ListEntry} (h : l.Pairwise fun e e' => keyLt e.text e'.text = true) : l.Nodup :=
  List.Pairwise.imp (fun {a b} (hlt : keyLt a.text b.text = true) (e : a = b) => keyLt_ne hlt (by rw [e])) h

theorem remaining_next {pfx : Key} {delim : Bool} {t : Option ListEntry} {b : Bucket} (hb : b.WF)
    (ht : ∀ t' ∈ t, ∃ k, pfx <+: k ∧ entryOf pfx delim k = t') {n : Nat} (hn : 0 < n)
    (hlt : n < (remaining pfx delim t b).length) :
    (remaining pfx delim (((remaining pfx delim t b).take n).getLast?.or t) b).length
      < (remaining pfx delim t b).length := by
  have hsort := remaining_sorted pfx delim t hb
  generalize hR : remaining pfx delim t b = R at *
  cases hl : (R.take n).getLast? with
  | none =>
    rw [List.getLast?_eq_none_iff, List.take_eq_nil_iff] at hl
    rcases hl with hl | hl
    · omega
    · rw [hl] at hlt
      exact absurd hlt (Nat.not_lt_zero _)
  | some l =>
    show (remaining pfx delim (some l) b).length < _
    have hlm := List.mem_of_getLast? hl
    have hlR : l ∈ remaining pfx delim t b := hR ▸ List.mem_of_mem_take hlm
    obtain ⟨k0, _, h0, _, h0e⟩ := mem_remaining.1 hlR
    have hsub : ∀ x ∈ remaining pfx delim (some l) b, x ∈ R.drop n := by
      intro x hx
      obtain ⟨k, h1, h2, h3, rfl⟩ := mem_remaining.1 hx
      have hbey : keyLt l.text (entryOf pfx delim k).text = true := by
        rw [← h0e]
        exact beyond h0 h2 (by rw [h0e]; exact h3 l rfl)
      have hxR : entryOf pfx delim k ∈ R := by
        rw [← hR]
        refine mem_remaining.2 ⟨k, h1, h2, fun t' ht' => ?_, rfl⟩
        obtain ⟨k1, h4, rfl⟩ := ht t' ht'
        refine not_passed h4 h2 (keyLt_trans ?_ hbey)
        obtain ⟨k2, _, h5, h6, h7⟩ := mem_remaining.1 hlR
        rw [← h7]
        exact beyond h4 h5 (h6 _ ht')
      rw [← List.take_append_drop n R, List.mem_append] at hxR
      rcases hxR with hxR | hxR
      · exfalso
        obtain ⟨m, hm⟩ := List.getLast?_eq_some_iff.1 hl
        have hs : (m ++ [l]).Pairwise fun e e' => keyLt e.text e'.text = true := hm ▸ hsort.take
        rw [List.pairwise_append] at hs
        rw [hm, List.mem_append, List.mem_singleton] at hxR
        rcases hxR with hxR | hxR
        · have := hs.2.2 _ hxR l List.mem_cons_self
          rw [keyLt_asymm this] at hbey
          cases hbey
        · rw [hxR, keyLt_irrefl] at hbey
          cases hbey
      · exact hxR
    have := nodup_length_le (sorted_nodup (remaining_sorted pfx delim (some l) hb)) hsub
    rw [List.length_drop] at this
    omega

/-- The service answers all requests: no errors, no failures, no empty pages. -/
def Healthy (es : List Event) : Prop := ∀ e ∈ es, e.change = id ∧ (∀ kind, e.error kind = none) ∧ 0 < e.size ∧ e.failed = []

theorem listLoop_ends {pfx : Key} {delim : Bool} :
    ∀ {es : List Event} {b : Bucket} {t : Option ListEntry} {out : List ListEntry}, b.WF →
      (∀ t' ∈ t, ∃ k, pfx <+: k ∧ entryOf pfx delim k = t') → Healthy es →
      (remaining pfx delim t b).length < es.length →
      ∃ r es', listLoop pfx delim es b t out = (some (.ok (r, true)), ⟨es', b⟩) ∧ es' <:+ es ∧
        es.length ≤ es'.length + (remaining pfx delim t b).length + 1 := by
  intro es
  induction es with
  | nil => intro b t out _ _ _ h; exact absurd h (Nat.not_lt_zero _)
  | cons e es ih =>
    intro b t out hb ht hh hlen
    obtain ⟨h1, h2, h3, _⟩ := hh e List.mem_cons_self
    have hs : e.serve .list (listReq pfx delim none t) b
        = (.ok ⟨(remaining pfx delim t b).take e.size, decide (e.size < (remaining pfx delim t b).length),
          ((remaining pfx delim t b).take e.size).getLast?.or t⟩, b) := by
      unfold Event.serve
      rw [h2, h1]
      rfl
    unfold listLoop
    rw [hs]
    dsimp only
    by_cases hd : e.size < (remaining pfx delim t b).length
    · rw [if_pos (decide_eq_true hd)]
      have hnext := remaining_next hb ht h3 hd
      have ht' : ∀ t' ∈ ((remaining pfx delim t b).take e.size).getLast?.or t,
          ∃ k, pfx <+: k ∧ entryOf pfx delim k = t' := by
        intro t' hm
        cases hl : ((remaining pfx delim t b).take e.size).getLast? with
        | none =>
          rw [hl] at hm
          exact ht t' hm
        | some l =>
          rw [hl] at hm
          have hm := Option.some.inj hm
          subst hm
          obtain ⟨k, _, h4, _, h5⟩ := mem_remaining.1 (List.mem_of_mem_take (List.mem_of_getLast? hl))
          exact ⟨k, h4, h5⟩
      obtain ⟨r, es', h4, h5, h6⟩ := ih (out := out ++ (remaining pfx delim t b).take e.size) hb ht'
        (fun e' he' => hh e' (List.mem_cons_of_mem _ he')) (by simp only [List.length_cons] at hlen; omega)
      refine ⟨r, es', h4, h5.trans (List.suffix_cons _ _), ?_⟩
      simp only [List.length_cons]
      omega
    · rw [if_neg (by simpa using hd)]
      exact ⟨_, es, rfl, List.suffix_cons _ _, by simp only [List.length_cons]; omega⟩

theorem deleteFrom_ends {keys : List Key} (start : Nat) :
    ∀ {w : World}, Healthy w.events → keys.length - start ≤ w.events.length →
      ∃ w', deleteFrom keys start w = (some (.ok ()), w') ∧
        w.events.length ≤ w'.events.length + (keys.length - start) := by
  induction start using deleteFrom.induct keys with
  | case1 start h ih =>
    intro w hh hlen
    rcases hw : w.events with _ | ⟨e, es⟩
    · rw [hw] at hlen
      simp only [List.length_nil] at hlen
      omega
    · obtain ⟨h1, h2, h3, h4⟩ := hh e (hw ▸ List.mem_cons_self)
      have hreq : ∃ b', request .deleteBatch (deleteObjectsReq
          ((keys.drop start).take (min (start + batchSize) keys.length - start))) w
            = (some (.ok (.ok ())), ⟨es, b'⟩) := by
        unfold request
        rw [hw]
        dsimp only
        refine ⟨w.bucket.erase (((keys.drop start).take batchSize).filter fun k => !e.failed.contains k), ?_⟩
        unfold Event.serve
        rw [h2, h1, take_batch]
        dsimp only
        unfold deleteObjectsReq
        have : ((keys.drop start).take batchSize).length ≤ batchSize := List.length_take_le ..
        rw [if_neg (show ¬ _ > 1000 from Nat.not_lt.2 this)]
        rfl
      obtain ⟨b', hreq⟩ := hreq
      obtain ⟨w', hw', hl'⟩ := ih (w := ⟨es, b'⟩) (fun e' he' => hh e' (hw ▸ List.mem_cons_of_mem _ he')) (by
        rw [hw, List.length_cons] at hlen
        show keys.length - (start + batchSize) ≤ es.length
        have : 0 < batchSize := by decide
        omega)
      refine ⟨w', ?_, ?_⟩
      · unfold deleteFrom
        rw [if_pos h, S3M.run_bind hreq]
        exact hw'
      · have h5 : es.length ≤ w'.events.length + (keys.length - (start + batchSize)) := hl'
        have : 0 < batchSize := by decide
        rw [← hw, hw, List.length_cons]
        omega
  | case2 start h =>
    intro w _ _
    refine ⟨w, ?_, Nat.le_add_right _ _⟩
    unfold deleteFrom
    rw [if_neg h]
    rfl

/-- **C50.**  If the service is healthy and others leave the bucket alone, the removal ends, and succeeds, with at most
    one request for each object, and one more for each page of the listing.  (In particular no batch is larger than the
    service admits.) -/
theorem c50_remove_ends {h : S3Handle} (hm : h.mode.canWrite = true) {w : World} (hw : w.bucket.WF)
    (hh : Healthy w.events) (hlen : 2 * w.bucket.length < w.events.length) :
    ∃ w', h.remove w = (some (.ok ()), w') ∧ w.events.length ≤ w'.events.length + 2 * w.bucket.length + 1 := by
  have hR : ∀ t, (remaining (dirPrefix h.name) false t w.bucket).length ≤ w.bucket.length := by
    intro t
    have h1 : w.bucket.length = (w.bucket.map fun p => ListEntry.key p.1).length := by rw [List.length_map]
    rw [h1]
    refine nodup_length_le (sorted_nodup (remaining_sorted _ _ _ hw)) fun x hx => ?_
    obtain ⟨k, hk, _, _, rfl⟩ := mem_remaining.1 hx
    unfold Bucket.keys at hk
    obtain ⟨p, hp, rfl⟩ := List.mem_map.1 hk
    exact List.mem_map.2 ⟨p, hp, rfl⟩
  obtain ⟨r, es', h1, h2, h3⟩ := listLoop_ends (pfx := dirPrefix h.name) (delim := false) (t := none) (out := []) hw
    (fun t ht => by cases ht) hh (by have := hR none; omega)
  have hok : World.Ok w := ⟨hw, fun e he b hb => by rw [(hh e he).1]; exact hb⟩
  have hlist : listAllKeys (dirPrefix h.name) w = (some (.ok (r.filterMap (·.key?))), ⟨es', w.bucket⟩) := by
    unfold listAllKeys
    rw [S3M.run_bind (x := listPages (dirPrefix h.name) false) h1]
    rfl
  have hkl : (r.filterMap (·.key?)).length ≤ w.bucket.length := by
    have hn := (c50_listing_exact hok (fun e he => (hh e he).1) hlist)
    have h1 : w.bucket.length = w.bucket.keys.length := by unfold Bucket.keys; rw [List.length_map]
    rw [h1]
    exact nodup_length_le hn.1 fun k hk => ((hn.2 k).1 hk).2
  obtain ⟨w', hd, hl'⟩ := deleteFrom_ends (keys := r.filterMap (·.key?)) 0 (w := ⟨es', w.bucket⟩)
    (fun e he => hh e (h2.subset he)) (by have := hR none; dsimp only; omega)
  refine ⟨w', ?_, by
    have := hR none
    have h5 : es'.length ≤ w'.events.length + _ := hl'
    omega⟩
  unfold S3Handle.remove
  rw [hm]
  show deletePrefix _ w = _
  unfold deletePrefix
  rw [S3M.run_bind hlist]
  exact hd

/-! ### The children of a group -/

theorem listLoop_flag {pfx : Key} {delim : Bool} :
    ∀ {es : List Event} {b : Bucket} {t : Option ListEntry} {out : List ListEntry} {r : Res (List ListEntry × Bool)}
      {w' : World}, (∀ e ∈ es, e.error .list = none) → listLoop pfx delim es b t out = (some r, w') →
      ∃ l, r = .ok (l, true) := by
  intro es
  induction es with
  | nil => intro b t out r w' _ h; cases h
  | cons e es ih =>
    intro b t out r w' he h
    unfold listLoop at h
    have herr := he e List.mem_cons_self
    have hs : ∃ page b', e.serve .list (listReq pfx delim none t) b = (.ok page, b') := by
      unfold Event.serve
      rw [herr]
      exact ⟨_, _, rfl⟩
    obtain ⟨page, b', hs⟩ := hs
    rw [hs] at h
    dsimp only at h
    split at h
    · exact ih (fun e' he' => he e' (List.mem_cons_of_mem _ he')) h
    · injection h with h _
      injection h with h
      exact ⟨_, h.symm⟩

theorem intercalate_snoc (l : Key) : ∀ {init : List Key}, init ≠ [] →
    ['/'].intercalate (init ++ [l]) = ['/'].intercalate init ++ '/' :: l
  | [], h => absurd rfl h
  | [a], _ => by simp [List.intercalate]
  | a :: b :: init, _ => by
    have := intercalate_snoc l (init := b :: init) (by simp)
    simp only [List.intercalate, List.cons_append, List.intersperse_cons_cons, List.flatten_cons] at this ⊢
    rw [this]
    simp

theorem cut_slash_right {x y s t : Key} (hs : '/' ∉ s) (ht : '/' ∉ t) (h : x ++ '/' :: s = y ++ '/' :: t) :
    x = y ∧ s = t := by
  have h' := congrArg List.reverse h
  simp only [List.reverse_append, List.reverse_cons, List.append_assoc] at h'
  obtain ⟨h1, h2⟩ := cut_slash (by simpa using hs) (by simpa using ht) h'
  exact ⟨List.reverse_inj.1 h2, List.reverse_inj.1 h1⟩

theorem slash_infix {p : Key} (h : ¬ ['/'] <:+: p) : '/' ∉ p := by
  intro hm
  obtain ⟨a, b, rfl⟩ := List.append_of_mem hm
  exact h ⟨a, b, by simp⟩

/-- the piece before the last of `name/x/` -/
theorem split_name {name x : Key} (hx : '/' ∉ x) :
    ∃ rest, (split (dirPrefix name ++ x ++ ['/']) ['/']).map List.reverse = some ([] :: x :: rest) := by
  obtain ⟨pieces, h1, h2, h3⟩ := Props.c46_split (dirPrefix name ++ x ++ ['/']) ['/'] (by simp)
  have h3 : ∀ p ∈ pieces, '/' ∉ p := fun p hp => slash_infix (h3 p hp)
  rw [h1]
  rcases pieces.eq_nil_or_concat with rfl | ⟨init, l, rfl⟩
  · simp [List.intercalate] at h2
  · rw [List.concat_eq_append] at h2 h3 ⊢
    by_cases hi : init = []
    · subst hi
      have := h3 l (by simp)
      exfalso
      apply this
      simp only [List.intercalate, List.nil_append, List.intersperse_singleton, List.flatten_cons, List.flatten_nil,
        List.append_nil] at h2
      rw [h2]
      simp
    · rw [intercalate_snoc l hi] at h2
      obtain ⟨h4, h5⟩ := cut_slash_right (h3 l (by simp)) (by simp) h2
      subst h5
      rcases init.eq_nil_or_concat with rfl | ⟨init', l2, rfl⟩
      · exact absurd rfl hi
      · rw [List.concat_eq_append] at h4 h3 ⊢
        have hl2 := h3 l2 (by simp)
        have : l2 = x := by
          unfold dirPrefix at h4
          by_cases hi' : init' = []
          · subst hi'
            simp only [List.intercalate, List.nil_append, List.intersperse_singleton, List.flatten_cons,
              List.flatten_nil, List.append_nil] at h4
            subst h4
            split
            · rfl
            · rename_i hn
              rw [if_neg hn] at hl2
              simp at hl2
          · rw [intercalate_snoc l2 hi'] at h4
            split at h4
            · exfalso
              apply hx
              rw [List.nil_append] at h4
              rw [← h4]
              simp
            · rw [List.append_assoc] at h4
              exact (cut_slash_right hl2 hx h4).2
        subst this
        exact ⟨init'.reverse, by simp⟩

theorem prefixNames_ok {name : Key} : ∀ {xs : List Key}, (∀ x ∈ xs, '/' ∉ x) →
    prefixNames (xs.map fun x => dirPrefix name ++ x ++ ['/']) = .ok xs
  | [], _ => rfl
  | x :: xs, h => by
    obtain ⟨rest, h1⟩ := split_name (name := name) (h x List.mem_cons_self)
    rw [List.map_cons]
    unfold prefixNames
    rw [if_pos (by simp), h1, prefixNames_ok fun y hy => h y (List.mem_cons_of_mem _ hy)]
    rfl

/-- **C50.**  If no request fails, the children of a group are listed: every child of which an object is there all
    the time; a child that is listed had an object; no child is listed twice.  With pages of any size, and
    whatever others do meanwhile. -/
theorem c50_keys {h : S3Handle} {w w' : World} (hw : World.Ok w) (he : ∀ e ∈ w.events, e.error .list = none)
    {r : Res (List Key)} (hr : h.keys w = (some r, w')) :
    ∃ names, r = .ok names ∧ names.Nodup ∧
      (∀ x s, '/' ∉ x → Stays (dirPrefix h.name ++ x ++ '/' :: s) w → x ∈ names) ∧
      (∀ x ∈ names, '/' ∉ x ∧ ¬ Never (fun k => ∃ s, k = dirPrefix h.name ++ x ++ '/' :: s) w) := by
  unfold S3Handle.keys at hr
  rcases S3M.bind_some hr with ⟨⟨entries, c⟩, w1, h1, h2⟩ | ⟨_, h1, _⟩ | ⟨h1, _⟩
  · have h1' : listLoop (dirPrefix h.name) true w.events w.bucket none [] = (some (.ok (entries, c)), w1) := h1
    obtain ⟨l, hl⟩ := listLoop_flag he h1'
    injection hl with hl
    injection hl with hl hc
    subst hl hc
    obtain ⟨E, h3, h4, _, h5, h6⟩ := listLoop_spec (dirPrefix h.name) true w.events w.bucket none [] hw.1 hw.2
      (fun t ht => by cases ht) h1'
    rw [List.nil_append] at h3
    subst h3
    have hnames : ∀ {l : List ListEntry}, (∀ e ∈ l, e ∈ entries) → ∃ xs : List Key, (∀ x ∈ xs, '/' ∉ x) ∧
        l.filterMap (·.pre?) = xs.map fun x => dirPrefix h.name ++ x ++ ['/'] := by
      intro l
      induction l with
      | nil => exact fun _ => ⟨[], (fun x hx => by cases hx), rfl⟩
      | cons e l ih =>
        intro hl
        obtain ⟨xs, i1, i2⟩ := ih fun e' he' => hl e' (List.mem_cons_of_mem _ he')
        obtain ⟨b', _, k, _, hp, hk⟩ := h5 e (hl e List.mem_cons_self)
        rcases entryOf_cases true hp with ⟨hc, _⟩ | ⟨_, x, s, hx, _, hc⟩
        · exact ⟨xs, i1, by rw [← hk, hc, List.filterMap_cons_none rfl, i2]⟩
        · refine ⟨x :: xs, List.forall_mem_cons.2 ⟨hx, i1⟩, ?_⟩
          rw [← hk, hc, List.map_cons, ← i2]
          rfl
    obtain ⟨xs, hx1, hx2⟩ := hnames (l := entries) fun _ h => h
    have h2 : ((some (prefixNames (entries.filterMap (·.pre?))), w1) : Option (Res (List Key)) × World)
        = (some r, w') := h2
    rw [hx2, prefixNames_ok hx1] at h2
    injection h2 with h2 _
    injection h2 with h2
    have hmem : ∀ x, x ∈ xs → .pre (dirPrefix h.name ++ x ++ ['/']) ∈ entries := by
      intro x hx
      have : dirPrefix h.name ++ x ++ ['/'] ∈ entries.filterMap (·.pre?) := by
        rw [hx2]
        exact List.mem_map.2 ⟨x, hx, rfl⟩
      obtain ⟨e, he, hep⟩ := List.mem_filterMap.1 this
      cases e with
      | key _ => cases hep
      | pre p =>
        cases hep
        exact he
    refine ⟨xs, h2.symm, ?_, ?_, ?_⟩
    · have : (entries.filterMap (·.pre?)).Pairwise (fun a b : Key => a ≠ b) := by
        refine (h4.filterMap (S := fun a b : Key => a ≠ b) (·.pre?) ?_)
        intro e e' hlt k hk k' hk' hkk
        cases e with
        | key _ => cases hk
        | pre _ =>
          cases e' with
          | key _ => cases hk'
          | pre _ =>
            cases hk
            cases hk'
            exact keyLt_ne hlt hkk
      rw [hx2, List.pairwise_map] at this
      exact List.Pairwise.imp (fun {a b} hne (e : a = b) => hne (by rw [e])) this
    · intro x s hx hs
      have := h6 (dirPrefix h.name ++ x ++ '/' :: s) ⟨x ++ '/' :: s, by simp⟩ (fun t ht => by cases ht)
        (seenBy_inv (P := fun b => _ ∈ b.keys) hs.2 hs.1)
      rw [entryOf_pre hx] at this
      have hm : dirPrefix h.name ++ x ++ ['/'] ∈ entries.filterMap (·.pre?) :=
        List.mem_filterMap.2 ⟨_, this, rfl⟩
      rw [hx2] at hm
      obtain ⟨y, hy, hyx⟩ := List.mem_map.1 hm
      have := List.append_cancel_left (List.append_cancel_right hyx)
      rwa [← this]
    · intro x hx
      refine ⟨hx1 x hx, fun hn => ?_⟩
      obtain ⟨b', hb', k, hk, hp, hke⟩ := h5 _ (hmem x hx)
      rcases entryOf_cases true hp with ⟨hc, _⟩ | ⟨_, y, s, hy, hky, hc⟩
      · rw [hc] at hke
        cases hke
      · rw [hc] at hke
        injection hke with hke
        have hyx := List.append_cancel_left (List.append_cancel_right hke)
        subst hyx
        exact seenBy_inv (P := fun b => ∀ k' ∈ b.keys, ¬ ∃ s, k' = dirPrefix h.name ++ y ++ '/' :: s) hn.2 hn.1 b' hb' k
          hk ⟨s, hky⟩
  · have h1' : listLoop (dirPrefix h.name) true w.events w.bucket none [] = (some (.throw _), w') := h1
    obtain ⟨l, hl⟩ := listLoop_flag he h1'
    cases hl
  · have h1' : listLoop (dirPrefix h.name) true w.events w.bucket none [] = (some .ub, w') := h1
    obtain ⟨l, hl⟩ := listLoop_flag he h1'
    cases hl

/-- **C50, negation**: when a request fails, the children are listed all the same, without those that were on the
    pages that have not been received. -/
theorem c50_keys_error_counterexample : ∃ (h : S3Handle) (w w' : World) (names : List Key), World.Ok w ∧
    World.Quiet w ∧ h.keys w = (some (.ok names), w') ∧
    Stays (dirPrefix h.name ++ "b".toList ++ '/' :: "c".toList) w ∧ "b".toList ∉ names := by
  refine ⟨⟨"a".toList, .r⟩, ⟨[{ error := fun _ => some (.other, false) }], [("a/b/c".toList, .file [])]⟩,
    ⟨[], [("a/b/c".toList, .file [])]⟩, [], ⟨?_, ?_⟩, ?_, rfl, ⟨?_, ?_⟩, by simp⟩
  · exact List.pairwise_singleton _ _
  · intro e he b hb
    cases List.mem_singleton.1 he
    exact hb
  · intro e he
    cases List.mem_singleton.1 he
    rfl
  · simp [Bucket.keys, dirPrefix]
  · intro e he b hb
    cases List.mem_singleton.1 he
    exact hb

/-! ### Existence -/

theorem request_some {α : Type} {kind : ReqKind} {f : Event → Bucket → Except S3Err α × Bucket} {w w' : World}
    {r : Res (Except S3Err α)} (h : request kind f w = (some r, w')) : ∃ x, r = .ok x := by
  unfold request at h
  rcases hw : w.events with _ | ⟨e, es⟩
  · rw [hw] at h
    cases h
  · rw [hw] at h
    injection h with h _
    injection h with h
    exact ⟨_, h.symm⟩

theorem anyObject_spec {pfx : Key} {w w' : World} (hs : ∀ e ∈ w.events, 0 < e.size) {r : Res Bool}
    (hr : anyObjectWithPrefix pfx w = (some r, w')) :
    (r = .throw .runtimeError ∧ ∃ e ∈ w.events, e.error .list ≠ none) ∨
      ∃ a : Bool, r = .ok a ∧ (a = true ↔ ∃ k ∈ w'.bucket.keys, pfx <+: k) ∧
        ∃ e ∈ w.events, w'.bucket = e.change w.bucket := by
  unfold anyObjectWithPrefix at hr
  rcases S3M.bind_some hr with ⟨v, w1, h1, h2⟩ | ⟨_, h1, _⟩ | ⟨h1, _⟩
  · obtain ⟨e, es, he, hv, _⟩ := request_ok h1
    cases v with
    | error x =>
      left
      have hr : ((some (.throw .runtimeError), _) : Option (Res Bool) × World) = (some r, w') := h2
      injection hr with hr _
      injection hr with hr
      refine ⟨hr.symm, e, he ▸ List.mem_cons_self, fun hn => ?_⟩
      unfold Event.serve at hv
      rw [hn] at hv
      injection hv with hv _
      cases hv
    | ok page =>
      right
      have hr : ((some (.ok (decide (page.entries.length > 0))), w1) : Option (Res Bool) × World)
        = (some r, w') := h2
      injection hr with hr hw'
      injection hr with hr
      subst hr hw'
      refine ⟨_, rfl, ?_⟩
      obtain ⟨_, hp⟩ := serve_ok hv
      unfold listReq at hp
      injection hp with hp hb
      injection hp with hp
      rw [← hb]
      subst hp
      have hsize := hs e (he ▸ List.mem_cons_self)
      refine ⟨?_, e, he ▸ List.mem_cons_self, rfl⟩
      simp only [decide_eq_true_eq, List.length_take]
      constructor
      · intro hlt
        have hpos : 0 < (remaining pfx false none (e.change w.bucket)).length := by omega
        obtain ⟨x, hx⟩ := List.exists_mem_of_length_pos hpos
        obtain ⟨k, h1, h2, _⟩ := mem_remaining.1 hx
        exact ⟨k, h1, h2⟩
      · rintro ⟨k, h1, h2⟩
        have := List.length_pos_of_mem
          (mem_remaining.2 ⟨k, h1, h2, (fun t ht => by cases ht), rfl⟩ :
            entryOf pfx false k ∈ remaining pfx false none (e.change w.bucket))
        omega
  · obtain ⟨_, h⟩ := request_some h1
    cases h
  · obtain ⟨_, h⟩ := request_some h1
    cases h

/-- **C50.**  If asking whether a file, group or dataset exists succeeds, the answer is whether there is an object
    under its name at the moment of the request.  It cannot be answered wrongly because a request failed: then it
    throws. -/
theorem c50_exists {h : S3Handle} {w w' : World} (hs : ∀ e ∈ w.events, 0 < e.size) {r : Res Bool}
    (hr : h.exist w = (some r, w')) :
    (r = .throw .runtimeError ∧ ∃ e ∈ w.events, e.error .list ≠ none) ∨
      ∃ a : Bool, r = .ok a ∧ (a = true ↔ ∃ k ∈ w'.bucket.keys, dirPrefix h.name <+: k) := by
  rcases anyObject_spec hs hr with h | ⟨a, h1, h2, _⟩
  · exact .inl h
  · exact .inr ⟨a, h1, h2⟩

/-- **C50.**  If no request fails and others leave the bucket alone, asking whether a group has a child answers
    whether there is an object of that name, or one under it. -/
theorem c50_in {h : S3Handle} {name : Key} {w w' : World} (hq : World.Quiet w) (hs : ∀ e ∈ w.events, 0 < e.size)
    (he : ∀ e ∈ w.events, e.error .head = none ∧ e.error .list = none) {r : Res Bool} (hr : h.has name w = (some r, w')) :
    ∃ a : Bool, r = .ok a ∧ (a = true ↔ joinKey h.name name ∈ w.bucket.keys ∨
      ∃ k ∈ w.bucket.keys, joinKey h.name name ++ ['/'] <+: k) := by
  unfold S3Handle.has objectExists at hr
  rcases S3M.bind_some hr with ⟨ex, w1, h1, h2⟩ | ⟨_, h1, _⟩ | ⟨h1, _⟩
  · obtain ⟨v, w2, h3, h4⟩ := S3M.bind_ok h1
    obtain ⟨e, es, hwe, hv, hw2⟩ := request_ok h3
    have hem : e ∈ w.events := hwe ▸ List.mem_cons_self
    have hv : headReq (joinKey h.name name) e w.bucket = (v, w2.bucket) := by
      unfold Event.serve at hv
      rw [(he e hem).1, hq e hem] at hv
      exact hv
    have hb2 : w2.bucket = w.bucket := by
      unfold headReq at hv
      split at hv <;> exact (congrArg Prod.snd hv).symm
    have hev : ∀ e' ∈ w2.events, e' ∈ w.events := by
      intro e' he'
      rw [hw2] at he'
      rw [hwe]
      exact List.mem_cons_of_mem _ he'
    by_cases hg : w.bucket.get (joinKey h.name name) = none
    · have hvn : v = .error .notFound := by
        unfold headReq at hv
        rw [hg] at hv
        exact (congrArg Prod.fst hv).symm
      subst hvn
      have h4 : ((some (.ok false), w2) : Option (Res Bool) × World) = (some (.ok ex), w1) := h4
      injection h4 with h4 h5
      injection h4 with h4
      injection h4 with h4
      subst h4 h5
      have h2 : anyObjectWithPrefix (joinKey h.name name ++ ['/']) w2 = (some r, w') := h2
      rcases anyObject_spec (fun e' he' => hs e' (hev e' he')) h2 with ⟨_, e', he', hne⟩ | ⟨a, h5, h6, e', he', h7⟩
      · exact absurd (he e' (hev e' he')).2 hne
      · rw [hq e' (hev e' he'), hb2] at h7
        rw [show w'.bucket = w.bucket from h7] at h6
        refine ⟨a, h5, h6.trans ⟨.inr, ?_⟩⟩
        rintro (hm | hm)
        · exact absurd hm (get_none.1 hg)
        · exact hm
    · have hvn : v = .ok () := by
        unfold headReq at hv
        obtain ⟨o, ho⟩ := Option.ne_none_iff_exists'.1 hg
        rw [ho] at hv
        exact (congrArg Prod.fst hv).symm
      subst hvn
      have h4 : ((some (.ok true), w2) : Option (Res Bool) × World) = (some (.ok ex), w1) := h4
      injection h4 with h4 h5
      injection h4 with h4
      injection h4 with h4
      subst h4 h5
      have h2 : ((some (.ok true), w2) : Option (Res Bool) × World) = (some r, w') := h2
      injection h2 with h2 _
      injection h2 with h2
      refine ⟨true, h2.symm, fun _ => .inl ?_, fun _ => rfl⟩
      apply Classical.byContradiction
      intro hm
      exact hg (get_none.2 hm)
  · rcases S3M.bind_some h1 with ⟨v, w2, h3, h4⟩ | ⟨_, h3, _⟩ | ⟨h3, _⟩
    · cases v with
      | ok _ => cases h4
      | error _ => cases h4
    · obtain ⟨_, h⟩ := request_some h3
      cases h
    · obtain ⟨_, h⟩ := request_some h3
      cases h
  · rcases S3M.bind_some h1 with ⟨v, w2, h3, h4⟩ | ⟨_, h3, _⟩ | ⟨h3, _⟩
    · cases v with
      | ok _ => cases h4
      | error _ => cases h4
    · obtain ⟨_, h⟩ := request_some h3
      cases h
    · obtain ⟨_, h⟩ := request_some h3
      cases h

/-- **C50, negation**: a failed request is taken for the absence of the object. -/
theorem c50_in_error_counterexample : ∃ (h : S3Handle) (name : Key) (w w' : World), World.Ok w ∧ World.Quiet w ∧
    h.has name w = (some (.ok false), w') ∧ Stays (joinKey h.name name) w := by
  refine ⟨⟨"a".toList, .r⟩, ".zarray".toList, ⟨[{ error := fun _ => some (.other, false) }, {}], [("a/.zarray".toList, .file [])]⟩,
    ⟨[], [("a/.zarray".toList, .file [])]⟩, ⟨?_, ?_⟩, ?_, rfl, ⟨?_, ?_⟩⟩
  · exact List.pairwise_singleton _ _
  · intro e he b hb
    simp only [List.mem_cons, List.not_mem_nil, or_false] at he
    rcases he with rfl | rfl <;> exact hb
  · intro e he
    simp only [List.mem_cons, List.not_mem_nil, or_false] at he
    rcases he with rfl | rfl <;> rfl
  · simp [Bucket.keys, joinKey]
  · intro e he b hb
    simp only [List.mem_cons, List.not_mem_nil, or_false] at he
    rcases he with rfl | rfl <;> exact hb

/-! ### Instances -/

/-- a bucket with three objects, one of them a neighbour of the same beginning -/
def S3Example.bucket : Bucket :=
  [("data/a/0".toList, .file []), ("data/b/0".toList, .file [1]), ("data2/c".toList, .file [2])]

/-- While `data` is listed, on pages of one entry, somebody creates `data/c/0`. -/
def S3Example.world : World :=
  ⟨[{ size := 1 }, { size := 1, change := fun b => b.put "data/c/0".toList (.file [3]) }, { size := 1 }, {}, {}],
    S3Example.bucket⟩

theorem S3Example.ok : World.Ok S3Example.world := by
  refine ⟨?_, ?_⟩
  · show List.Pairwise _ _
    decide +kernel
  · intro e he b hb
    simp only [S3Example.world, List.mem_cons, List.not_mem_nil, or_false] at he
    rcases he with rfl | rfl | rfl | rfl | rfl
    · exact hb
    · exact put_wf hb
    all_goals exact hb

/-- The listing sees all three objects. -/
example : ∃ w', listAllKeys "data/".toList S3Example.world
    = (some (.ok ["data/a/0".toList, "data/b/0".toList, "data/c/0".toList]), w') := ⟨_, rfl⟩

/-- The children are listed. -/
example : ∃ w', S3Handle.keys ⟨"data".toList, .r⟩ S3Example.world
    = (some (.ok ["a".toList, "b".toList, "c".toList]), w') := ⟨_, by rfl⟩

/-- The object `data/a/0` is there all the time; the removal of `data` succeeds with enough responses; `data2/c` is
    under another name. -/
example : Stays "data/a/0".toList ⟨S3Example.world.events.take 1, S3Example.bucket⟩ :=
  ⟨by decide +kernel, fun e he b hb => by
    cases List.mem_singleton.1 he
    exact hb⟩

example : ¬ dirPrefix "data".toList <+: "data2/c".toList := by decide

example : ∃ w', S3Handle.remove ⟨"data".toList, .a⟩ ⟨List.replicate 7 {}, S3Example.bucket⟩ = (some (.ok ()), w') :=
  have := c50_remove_ends (h := ⟨"data".toList, .a⟩) (w := ⟨List.replicate 7 {}, S3Example.bucket⟩) rfl S3Example.ok.1 (fun e he => by
    cases List.eq_of_mem_replicate he
    exact ⟨rfl, fun _ => rfl, by decide, rfl⟩) (by decide)
  ⟨this.choose, this.choose_spec.1⟩

end Z5
