import Verif.Proofs.S3
import Verif.Spec.S3

/-!
# Lemmas on listings and removals as a whole
-/

namespace Z5
open Spec

/-! ### The code as a state machine -/

theorem S3M.bind_eq {α β : Type} (x : S3M α) (f : α → S3M β) (w : World) :
    (x >>= f) w = match x w with
      | (some (.ok a), w) => f a w
      | (some (.throw e), w) => (some (.throw e), w)
      | (some .ub, w) => (some .ub, w)
      | (none, w) => (none, w) := rfl

theorem S3M.bind_some {α β : Type} {x : S3M α} {f : α → S3M β} {w w' : World} {r : Res β}
    (h : (x >>= f) w = (some r, w')) :
    (∃ a w1, x w = (some (.ok a), w1) ∧ f a w1 = (some r, w')) ∨
    (∃ e, x w = (some (.throw e), w') ∧ r = .throw e) ∨ (x w = (some .ub, w') ∧ r = .ub) := by
  have h : (match x w with
    | (some (.ok a), w) => f a w
    | (some (.throw e), w) => (some (.throw e), w)
    | (some .ub, w) => (some .ub, w)
    | (none, w) => (none, w)) = (some r, w') := h
  rcases hx : x w with ⟨_ | r', w1⟩
  · rw [hx] at h; cases h
  · rw [hx] at h
    cases r' with
    | ok a => exact .inl ⟨a, w1, rfl, h⟩
    | throw e =>
      injection h with h1 h2
      injection h1 with h1
      subst h2
      exact .inr (.inl ⟨e, rfl, h1.symm⟩)
    | ub =>
      injection h with h1 h2
      injection h1 with h1
      subst h2
      exact .inr (.inr ⟨rfl, h1.symm⟩)

theorem S3M.bind_ok {α β : Type} {x : S3M α} {f : α → S3M β} {w w' : World} {b : β}
    (h : (x >>= f) w = (some (.ok b), w')) : ∃ a w1, x w = (some (.ok a), w1) ∧ f a w1 = (some (.ok b), w') := by
  rcases S3M.bind_some h with h | ⟨e, _, h⟩ | ⟨_, h⟩
  · exact h
  · cases h
  · cases h

theorem S3M.run_bind {α β : Type} {x : S3M α} {f : α → S3M β} {w w1 : World} {a : α}
    (h : x w = (some (.ok a), w1)) : (x >>= f) w = f a w1 := by
  show (match x w with
    | (some (.ok a), w) => f a w
    | (some (.throw e), w) => (some (.throw e), w)
    | (some .ub, w) => (some .ub, w)
    | (none, w) => (none, w)) = _
  rw [h]

theorem request_ok {α : Type} {kind : ReqKind} {f : Event → Bucket → Except S3Err α × Bucket} {w w' : World} {r : Except S3Err α}
    (h : request kind f w = (some (.ok r), w')) :
    ∃ e es, w.events = e :: es ∧ e.serve kind f w.bucket = (r, w'.bucket) ∧ w'.events = es := by
  unfold request at h
  rcases hw : w.events with _ | ⟨e, es⟩
  · rw [hw] at h; cases h
  · rw [hw] at h
    have h : ((some (.ok (e.serve kind f w.bucket).1), ⟨es, (e.serve kind f w.bucket).2⟩) : Option (Res (Except S3Err α)) × World)
        = (some (.ok r), w') := h
    injection h with h1 h2
    injection h1 with h1
    injection h1 with h1
    subst h2
    exact ⟨e, es, rfl, by rw [← h1], rfl⟩

theorem serve_ok {α : Type} {kind : ReqKind} {f : Event → Bucket → Except S3Err α × Bucket} {e : Event} {b b' : Bucket} {a : α}
    (h : e.serve kind f b = (.ok a, b')) : e.error kind = none ∧ f e (e.change b) = (.ok a, b') := by
  unfold Event.serve at h
  split at h
  · cases h
  · exact ⟨by assumption, h⟩

/-- What others and all requests of the code keep, the code keeps. -/
def S3M.Keeps {α : Type} (x : S3M α) (es : List Event) (P : Bucket → Prop) : Prop :=
  ∀ w : World, w.events <:+ es → P w.bucket → (x w).2.events <:+ w.events ∧ P (x w).2.bucket

theorem S3M.Keeps.bind {α β : Type} {x : S3M α} {f : α → S3M β} {es : List Event} {P : Bucket → Prop}
    (h1 : x.Keeps es P) (h2 : ∀ a, (f a).Keeps es P) : (x >>= f).Keeps es P := by
  intro w hw hP
  obtain ⟨h3, h4⟩ := h1 w hw hP
  show (match x w with
    | (some (.ok a), w) => f a w
    | (some (.throw e), w) => (some (.throw e), w)
    | (some .ub, w) => (some .ub, w)
    | (none, w) => (none, w)).2.events <:+ _ ∧ P (match x w with
    | (some (.ok a), w) => f a w
    | (some (.throw e), w) => (some (.throw e), w)
    | (some .ub, w) => (some .ub, w)
    | (none, w) => (none, w)).2.bucket
  rcases hx : x w with ⟨_ | r', w1⟩
  · rw [hx] at h3 h4; exact ⟨h3, h4⟩
  · rw [hx] at h3 h4
    cases r' with
    | ok a =>
      obtain ⟨h5, h6⟩ := h2 a w1 (h3.trans hw) h4
      exact ⟨h5.trans h3, h6⟩
    | throw e => exact ⟨h3, h4⟩
    | ub => exact ⟨h3, h4⟩

theorem S3M.Keeps.lift {α : Type} (r : Res α) (es : List Event) (P : Bucket → Prop) :
    (S3M.lift r).Keeps es P := fun _ _ hP => ⟨List.suffix_rfl, hP⟩

theorem S3M.Keeps.pure {α : Type} (a : α) (es : List Event) (P : Bucket → Prop) :
    (Pure.pure a : S3M α).Keeps es P := fun _ _ hP => ⟨List.suffix_rfl, hP⟩

theorem serve_keeps {α : Type} {e : Event} {kind : ReqKind} {f : Event → Bucket → Except S3Err α × Bucket} {P : Bucket → Prop}
    (hc : ∀ b, P b → P (e.change b)) (hf : ∀ b, P b → P (f e b).2) {b : Bucket} (hb : P b) : P (e.serve kind f b).2 := by
  unfold Event.serve
  split
  · split
    · exact hf _ (hc _ hb)
    · exact hc _ hb
  · exact hf _ (hc _ hb)

theorem request_keeps {α : Type} {kind : ReqKind} {f : Event → Bucket → Except S3Err α × Bucket} {es : List Event} {P : Bucket → Prop}
    (hc : ∀ e ∈ es, ∀ b, P b → P (e.change b)) (hf : ∀ e ∈ es, ∀ b, P b → P (f e b).2) :
    (request kind f).Keeps es P := by
  intro w hw hP
  unfold request
  rcases hwe : w.events with _ | ⟨e, es'⟩
  · exact ⟨by rw [hwe]; exact List.suffix_rfl, hP⟩
  · have he : e ∈ es := hw.subset (hwe ▸ List.mem_cons_self)
    exact ⟨List.suffix_cons e es', serve_keeps (hc e he) (hf e he) hP⟩

theorem listReq_bucket (pfx : Key) (delim : Bool) (m : Option Nat) (t : Option ListEntry) (e : Event) (b : Bucket) :
    (listReq pfx delim m t e b).2 = b := rfl

theorem listLoop_keeps {pfx : Key} {delim : Bool} {P : Bucket → Prop} :
    ∀ {es : List Event} {b : Bucket} {t : Option ListEntry} {out : List ListEntry},
      (∀ e ∈ es, ∀ b, P b → P (e.change b)) → P b →
      (listLoop pfx delim es b t out).2.events <:+ es ∧ P (listLoop pfx delim es b t out).2.bucket := by
  intro es
  induction es with
  | nil => exact fun _ hP => ⟨List.suffix_rfl, hP⟩
  | cons e es ih =>
    intro b t out hc hP
    have h1 : P (e.serve .list (listReq pfx delim none t) b).2 :=
      serve_keeps (hc e List.mem_cons_self) (fun b hb => hb) hP
    unfold listLoop
    rcases hs : e.serve .list (listReq pfx delim none t) b with ⟨_ | page, b'⟩
    · rw [hs] at h1
      exact ⟨List.suffix_cons _ _, h1⟩
    · rw [hs] at h1
      dsimp only
      split
      · obtain ⟨h2, h3⟩ := ih (b := b') (t := page.next) (out := out ++ page.entries)
          (fun e he => hc e (List.mem_cons_of_mem _ he)) h1
        exact ⟨h2.trans (List.suffix_cons _ _), h3⟩
      · exact ⟨List.suffix_cons _ _, h1⟩

theorem listPages_keeps {pfx : Key} {delim : Bool} {es : List Event} {P : Bucket → Prop}
    (hc : ∀ e ∈ es, ∀ b, P b → P (e.change b)) : (listPages pfx delim).Keeps es P := fun _ hw hP =>
  listLoop_keeps (fun e he => hc e (hw.subset he)) hP

theorem listAllKeys_keeps {pfx : Key} {es : List Event} {P : Bucket → Prop}
    (hc : ∀ e ∈ es, ∀ b, P b → P (e.change b)) : (listAllKeys pfx).Keeps es P := by
  unfold listAllKeys
  refine (listPages_keeps hc).bind fun r => ?_
  obtain ⟨entries, complete⟩ := r
  cases complete
  · exact S3M.Keeps.lift _ _ _
  · exact S3M.Keeps.pure _ _ _

theorem seenBy_inv {pfx : Key} {delim : Bool} {P : Bucket → Prop} :
    ∀ {es : List Event} {b : Bucket} {t : Option ListEntry},
      (∀ e ∈ es, ∀ b, P b → P (e.change b)) → P b → ∀ b' ∈ seenBy pfx delim es b t, P b' := by
  intro es
  induction es with
  | nil => exact fun _ _ _ h => by cases h
  | cons e es ih =>
    intro b t hc hP b' hb'
    unfold seenBy at hb'
    rcases List.mem_cons.1 hb' with rfl | hb'
    · exact hc e List.mem_cons_self _ hP
    · have h1 : P (e.serve .list (listReq pfx delim none t) b).2 :=
        serve_keeps (hc e List.mem_cons_self) (fun b hb => hb) hP
      rcases hs : e.serve .list (listReq pfx delim none t) b with ⟨_ | page, b1⟩
      · rw [hs] at hb'; cases hb'
      · rw [hs] at hb' h1
        dsimp only at hb'
        split at hb'
        · exact ih (fun e he => hc e (List.mem_cons_of_mem _ he)) h1 b' hb'
        · cases hb'

/-- What holds at one of the requests and is kept holds at the end. -/
theorem seenBy_last {pfx : Key} {delim : Bool} {P : Bucket → Prop} :
    ∀ {es : List Event} {b : Bucket} {t : Option ListEntry} {out : List ListEntry},
      (∀ e ∈ es, ∀ b, P b → P (e.change b)) → (∃ b' ∈ seenBy pfx delim es b t, P b') →
      P (listLoop pfx delim es b t out).2.bucket := by
  intro es
  induction es with
  | nil => exact fun _ ⟨_, h, _⟩ => by cases h
  | cons e es ih =>
    intro b t out hc h
    obtain ⟨b', hb', hP⟩ := h
    unfold seenBy at hb'
    unfold listLoop
    have hsb : (e.serve .list (listReq pfx delim none t) b).2 = e.change b := by
      unfold Event.serve
      split
      · split <;> rfl
      · rfl
    rcases hs : e.serve .list (listReq pfx delim none t) b with ⟨_ | page, b1⟩
    · rw [hs] at hb' hsb
      dsimp only at hsb hb' ⊢
      rcases List.mem_cons.1 hb' with rfl | hb'
      · rw [hsb]; exact hP
      · cases hb'
    · rw [hs] at hb' hsb
      dsimp only at hb' hsb ⊢
      have hc' : ∀ e ∈ es, ∀ b, P b → P (e.change b) := fun e he => hc e (List.mem_cons_of_mem _ he)
      rcases List.mem_cons.1 hb' with rfl | hb'
      · rw [← hsb] at hP
        split
        · exact (listLoop_keeps hc' hP).2
        · exact hP
      · split at hb'
        · rename_i h
          rw [if_pos h]
          exact ih hc' ⟨b', hb', hP⟩
        · cases hb'

/-! ### Deletion -/

theorem mem_keys_erase {b : Bucket} {ks : List Key} {k : Key} : k ∈ (b.erase ks).keys ↔ k ∈ b.keys ∧ k ∉ ks := by
  unfold Bucket.keys Bucket.erase
  simp only [List.mem_map, List.mem_filter, Bool.not_eq_true', List.contains_eq_mem, decide_eq_false_iff_not]
  constructor
  · rintro ⟨p, ⟨h1, h2⟩, rfl⟩
    exact ⟨⟨p, h1, rfl⟩, h2⟩
  · rintro ⟨⟨p, h1, rfl⟩, h2⟩
    exact ⟨p, ⟨h1, h2⟩, rfl⟩

theorem get_erase {b : Bucket} {ks : List Key} {k : Key} (h : k ∉ ks) : (b.erase ks).get k = b.get k := by
  unfold Bucket.get Bucket.erase
  rw [List.find?_filter]
  congr 2
  funext p
  by_cases hp : p.1 = k
  · simp [hp, h]
  · simp [hp]

theorem get_none {b : Bucket} {k : Key} : b.get k = none ↔ k ∉ b.keys := by
  unfold Bucket.get Bucket.keys
  rw [Option.map_eq_none_iff, List.find?_eq_none, List.mem_map]
  constructor
  · rintro h ⟨p, hp, rfl⟩
    exact h p hp (by simp)
  · intro h p hp hk
    exact h ⟨p, hp, by simpa using hk⟩

theorem deleteObjects_mem {ks : List Key} {e : Event} {b : Bucket} {k : Key}
    (h : k ∈ (deleteObjectsReq ks e b).2.keys) : k ∈ b.keys := by
  unfold deleteObjectsReq at h
  split at h
  · exact h
  · exact (mem_keys_erase.1 h).1

theorem deleteFrom_keeps {keys : List Key} {es : List Event} {P : Bucket → Prop}
    (hc : ∀ e ∈ es, ∀ b, P b → P (e.change b))
    (hd : ∀ ks, (∀ k ∈ ks, k ∈ keys) → ∀ b : Bucket, P b → P (b.erase ks)) (start : Nat) :
    (deleteFrom keys start).Keeps es P := by
  induction start using deleteFrom.induct keys with
  | case1 start h ih =>
    unfold deleteFrom
    rw [if_pos h]
    refine (request_keeps hc fun e _ b hb => ?_).bind fun r => ?_
    · unfold deleteObjectsReq
      split
      · exact hb
      · exact hd _ (fun k hk => List.mem_of_mem_drop (List.mem_of_mem_take ((List.mem_filter.1 hk).1))) _ hb
    · cases r with
      | error _ => exact S3M.Keeps.lift _ _ _
      | ok _ => exact ih
  | case2 start h =>
    unfold deleteFrom
    rw [if_neg h]
    exact S3M.Keeps.pure _ _ _

theorem take_batch {α : Type} (l : List α) (start : Nat) :
    (l.drop start).take (min (start + batchSize) l.length - start) = (l.drop start).take batchSize := by
  rcases Nat.le_total (start + batchSize) l.length with h | h
  · rw [Nat.min_eq_left h, Nat.add_sub_cancel_left]
  · rw [Nat.min_eq_right h, List.take_of_length_le, List.take_of_length_le]
    · rw [List.length_drop]; omega
    · rw [List.length_drop]; omega

theorem deleteFrom_absent {keys : List Key} {k : Key} (start : Nat) :
    ∀ {w w' : World}, NotCreated k w → (∀ e ∈ w.events, k ∉ e.failed) →
      (k ∈ keys.drop start ∨ k ∉ w.bucket.keys) → deleteFrom keys start w = (some (.ok ()), w') →
      k ∉ w'.bucket.keys := by
  induction start using deleteFrom.induct keys with
  | case1 start h ih =>
    intro w w' hn hf hk hrun
    unfold deleteFrom at hrun
    rw [if_pos h] at hrun
    obtain ⟨r, w1, h1, h2⟩ := S3M.bind_ok hrun
    obtain ⟨e, es', hwe, hs, hw1⟩ := request_ok h1
    have he : e ∈ w.events := hwe ▸ List.mem_cons_self
    cases r with
    | error _ => cases h2
    | ok u =>
      obtain ⟨_, hs⟩ := serve_ok hs
      rw [take_batch] at hs
      refine ih (w := w1) (fun e' he' => hn e' (hwe ▸ List.mem_cons_of_mem _ (hw1 ▸ he')))
        (fun e' he' => hf e' (hwe ▸ List.mem_cons_of_mem _ (hw1 ▸ he'))) ?_ h2
      rw [← show (deleteObjectsReq _ e _).2 = w1.bucket from congrArg Prod.snd hs]
      rcases hk with hk | hk
      · rw [← List.take_append_drop batchSize (keys.drop start), List.mem_append, List.drop_drop] at hk
        rcases hk with hk | hk
        · right
          unfold deleteObjectsReq at hs ⊢
          split at hs
          · cases hs
          · rename_i hlen
            rw [if_neg hlen]
            intro hm
            refine (mem_keys_erase.1 hm).2 (List.mem_filter.2 ⟨hk, ?_⟩)
            simpa using hf e he
        · exact .inl hk
      · exact .inr fun hm => hn e he _ hk (deleteObjects_mem hm)
  | case2 start h =>
    intro w w' hn hf hk hrun
    unfold deleteFrom at hrun
    rw [if_neg h] at hrun
    cases hrun
    rcases hk with hk | hk
    · rw [List.drop_of_length_le (by omega)] at hk
      cases hk
    · exact hk

theorem put_wf {b : Bucket} {k : Key} {o : S3Obj} (hb : b.WF) : (b.put k o).WF := by
  unfold Bucket.put Bucket.WF
  rw [List.pairwise_append, List.pairwise_cons]
  refine ⟨List.Pairwise.sublist List.filter_sublist hb,
    ⟨fun p hp => by simpa using (List.mem_filter.1 hp).2, List.Pairwise.sublist List.filter_sublist hb⟩, ?_⟩
  intro p hp q hq
  have hp := (List.mem_filter.1 hp).2
  rcases List.mem_cons.1 hq with rfl | hq
  · simpa using hp
  · have hq := (List.mem_filter.1 hq).2
    exact keyLt_trans (by simpa using hp) (by simpa using hq)

theorem find_none {b : Bucket} {k : Key} : b.find? (fun p => p.1 == k) = none ↔ k ∉ b.keys := by
  have := get_none (b := b) (k := k)
  unfold Bucket.get at this
  rwa [Option.map_eq_none_iff] at this

theorem get_put_self {b : Bucket} {k : Key} {o : S3Obj} : (b.put k o).get k = some o := by
  unfold Bucket.put Bucket.get
  have : (b.filter fun p => keyLt p.1 k).find? (fun p => p.1 == k) = none := by
    rw [List.find?_eq_none]
    intro p hp
    have := (List.mem_filter.1 hp).2
    simpa using keyLt_ne (by simpa using this)
  rw [List.find?_append, this]
  simp

theorem get_put_ne {b : Bucket} {k k' : Key} {o : S3Obj} (hne : k' ≠ k) : (b.put k o).get k' = b.get k' := by
  unfold Bucket.put Bucket.get
  congr 1
  rw [List.find?_append, List.find?_cons_of_neg (by simpa using fun e => hne e.symm)]
  have hf : ∀ (f : Key × S3Obj → Bool) (g : Bool), (∀ p : Key × S3Obj, p.1 = k' → f p = g) → ∀ l : Bucket,
      (l.filter f).find? (fun p => p.1 == k') = if g then l.find? (fun p => p.1 == k') else none := by
    intro f g hfg l
    induction l with
    | nil => cases g <;> rfl
    | cons p l ih =>
      by_cases hp : p.1 = k'
      · have := hfg p hp
        cases g with
        | true => rw [List.filter_cons_of_pos this, List.find?_cons_of_pos (by simpa using hp),
            if_pos rfl, List.find?_cons_of_pos (by simpa using hp)]
        | false => rw [List.filter_cons_of_neg (by simp [this]), ih]; rfl
      · have hs : (p :: l).find? (fun p => p.1 == k') = l.find? (fun p => p.1 == k') :=
          List.find?_cons_of_neg (by simpa using hp)
        rw [hs, ← ih, List.filter_cons]
        split
        · exact List.find?_cons_of_neg (by simpa using hp)
        · rfl
  rw [hf (fun p => keyLt p.1 k) (keyLt k' k) (fun p hp => by rw [hp]),
    hf (fun p => keyLt k p.1) (keyLt k k') (fun p hp => by rw [hp])]
  rcases keyLt_total k' k with h | h | h
  · rw [h, keyLt_asymm h]
    simp
  · exact absurd h hne
  · rw [h, keyLt_asymm h]
    simp

end Z5
