import Verif.Spec.S3Nodes
import Verif.Proofs.S3Remove
import Verif.Proofs.Attributes

/-!
# What calls on S3 do, request by request
-/

namespace Z5
namespace S3M.Does

variable {α β : Type} {b b' : Bucket}

theorem mono {x : S3M α} {n m : Nat} {r : Res α} (h : x.Does n b r b') (hn : n ≤ m) : x.Does m b r b' := by
  intro es hes
  rcases h es hes with ⟨es', h1, h2, h3⟩ | h | ⟨h1, h2⟩
  · exact .inl ⟨es', h1, by omega, h3⟩
  · exact .inr (.inl h)
  · exact .inr (.inr ⟨by omega, h2⟩)

theorem lift (r : Res α) (b : Bucket) : (S3M.lift r).Does 0 b r b := fun es _ =>
  .inl ⟨es, List.suffix_rfl, by omega, rfl⟩

theorem pure (a : α) (b : Bucket) : (Pure.pure a : S3M α).Does 0 b (.ok a) b := fun es _ =>
  .inl ⟨es, List.suffix_rfl, by omega, rfl⟩

theorem bind {x : S3M α} {f : α → S3M β} {n m : Nat} {a : α} {r : Res β} (hx : x.Does n b (.ok a) b)
    (hf : (f a).Does m b r b') : (x >>= f).Does (n + m) b r b' := by
  intro es hes
  rcases hx es hes with ⟨es', h1, h2, h3⟩ | ⟨es', b'', h1, h2, h3, h4⟩ | ⟨h1, h2⟩
  · rw [S3M.run_bind h3]
    rcases hf es' (fun e he => hes e (h1.subset he)) with ⟨es'', g1, g2, g3⟩ | ⟨es'', b'', g1, g2, g3, e, g4, g5⟩ | ⟨g1, g2⟩
    · exact .inl ⟨es'', g1.trans h1, by omega, g3⟩
    · exact .inr (.inl ⟨es'', b'', g1.trans h1, g2, g3, e, h1.subset g4, g5⟩)
    · exact .inr (.inr ⟨by omega, g2⟩)
  · refine .inr (.inl ⟨es', b'', h1, ?_, .inl (h3.elim id id), h4⟩)
    rw [S3M.bind_eq, h2]
  · refine .inr (.inr ⟨by omega, ?_⟩)
    rw [S3M.bind_eq, h2]

theorem bind_throw {x : S3M α} {f : α → S3M β} {n : Nat} {e : Err} (hx : x.Does n b (.throw e) b') :
    (x >>= f).Does n b (.throw e) b' := by
  intro es hes
  rcases hx es hes with ⟨es', h1, h2, h3⟩ | ⟨es', b'', h1, h2, h3, h4⟩ | ⟨h1, h2⟩
  · refine .inl ⟨es', h1, h2, ?_⟩
    rw [S3M.bind_eq, h3]
  · refine .inr (.inl ⟨es', b'', h1, ?_, h3, h4⟩)
    rw [S3M.bind_eq, h2]
  · refine .inr (.inr ⟨h1, ?_⟩)
    rw [S3M.bind_eq, h2]

theorem bind_ub {x : S3M α} {f : α → S3M β} {n : Nat} (hx : x.Does n b .ub b') : (x >>= f).Does n b .ub b' := by
  intro es hes
  rcases hx es hes with ⟨es', h1, h2, h3⟩ | ⟨es', b'', h1, h2, h3, h4⟩ | ⟨h1, h2⟩
  · refine .inl ⟨es', h1, h2, ?_⟩
    rw [S3M.bind_eq, h3]
  · refine .inr (.inl ⟨es', b'', h1, ?_, h3, h4⟩)
    rw [S3M.bind_eq, h2]
  · refine .inr (.inr ⟨h1, ?_⟩)
    rw [S3M.bind_eq, h2]

/-- what a call that returned has done -/
theorem ok {x : S3M α} {n : Nat} {r : Res α} {es : List Event} {a : α} {w : World} (hx : x.Does n b r b')
    (hes : ∀ e ∈ es, e.Reliable) (h : x ⟨es, b⟩ = (some (.ok a), w)) : r = .ok a ∧ w.bucket = b' := by
  rcases hx es hes with ⟨es', _, _, h3⟩ | ⟨es', b'', h1, h2, _⟩ | ⟨h1, h2⟩
  · rw [h3] at h
    cases h
    exact ⟨rfl, rfl⟩
  · rw [h2] at h
    cases h
  · rw [h2] at h
    cases h

/-- Whatever happens, the bucket is as it was or as it should be. -/
theorem bucket {x : S3M α} {n : Nat} {r : Res α} {es : List Event} (hx : x.Does n b r b')
    (hes : ∀ e ∈ es, e.Reliable) : (x ⟨es, b⟩).2.bucket = b ∨ (x ⟨es, b⟩).2.bucket = b' := by
  rcases hx es hes with ⟨es', _, _, h3⟩ | ⟨es', b'', h1, h2, h3, _⟩ | ⟨h1, h2⟩
  · rw [h3]
    exact .inr rfl
  · rw [h2]
    exact h3
  · rw [h2]
    exact .inl rfl

/-- After the last request -/
theorem bind_lift {x : S3M α} {f : α → S3M β} {n : Nat} {a : α} {r : Res β} (hx : x.Does n b (.ok a) b')
    (hf : f a = S3M.lift r) : (x >>= f).Does n b r b' := by
  intro es hes
  rcases hx es hes with ⟨es', h1, h2, h3⟩ | ⟨es', b'', h1, h2, h3, h4⟩ | ⟨h1, h2⟩
  · refine .inl ⟨es', h1, h2, ?_⟩
    rw [S3M.run_bind h3, hf]
    rfl
  · refine .inr (.inl ⟨es', b'', h1, ?_, h3, h4⟩)
    rw [S3M.bind_eq, h2]
  · refine .inr (.inr ⟨h1, ?_⟩)
    rw [S3M.bind_eq, h2]

end S3M.Does

/-- one request that may fail -/
theorem request_does {α β : Type} {kind : ReqKind} {f : Event → Bucket → Except S3Err α × Bucket}
    {g : Except S3Err α → S3M β} {b b' : Bucket} {r : Res β}
    (hok : ∀ e : Event, e.Reliable → (f e b).2 = b' ∧ g (f e b).1 = S3M.lift r)
    (herr : ∀ (e : Event) (err : S3Err) (done : Bool), e.Reliable → e.error kind = some (err, done) →
      g (.error err) = S3M.lift (.throw .runtimeError)) :
    (request kind f >>= g).Does 1 b r b' := by
  intro es hes
  rcases es with _ | ⟨e, es⟩
  · exact .inr (.inr ⟨Nat.zero_lt_one, rfl⟩)
  · have he := hes e List.mem_cons_self
    have hrun : request kind f ⟨e :: es, b⟩ = (some (.ok (e.serve kind f b).1), ⟨es, (e.serve kind f b).2⟩) := rfl
    rw [S3M.run_bind hrun]
    cases hk : e.error kind with
    | none =>
      have hs : e.serve kind f b = f e b := by
        unfold Event.serve
        rw [hk, he.1]
        rfl
      obtain ⟨h1, h2⟩ := hok e he
      rw [hs, h1, h2]
      exact .inl ⟨es, List.suffix_cons _ _, by simp only [List.length_cons]; omega, rfl⟩
    | some p =>
      obtain ⟨err, done⟩ := p
      have hs : e.serve kind f b = (.error err, if done then (f e b).2 else b) := by
        unfold Event.serve
        rw [hk, he.1]
        rfl
      rw [hs, herr e err done he hk]
      refine .inr (.inl ⟨es, if done then (f e b).2 else b, List.suffix_cons _ _, rfl, ?_, e, List.mem_cons_self, kind, ?_⟩)
      · cases done
        · exact .inl rfl
        · exact .inr (hok e he).1
      · rw [hk]
        exact fun h => by cases h

theorem getObject_does (k : Key) (b : Bucket) : (getObject k).Does 1 b (.ok (b.get k)) b := by
  unfold getObject
  refine request_does (fun e _ => ?_) (fun e err done he h => ?_)
  · unfold getReq
    cases b.get k <;> exact ⟨rfl, rfl⟩
  · cases err with
    | notFound => exact absurd h (he.2.2.1 done)
    | other => rfl

theorem objectExists_does (k : Key) (b : Bucket) : (objectExists k).Does 1 b (.ok (b.get k).isSome) b := by
  unfold objectExists
  refine request_does (fun e _ => ?_) (fun e err done he h => ?_)
  · unfold headReq
    cases b.get k <;> exact ⟨rfl, rfl⟩
  · rw [he.2.1] at h
    cases h

theorem putObject_does (k : Key) (o : S3Obj) (b : Bucket) : (putObject k o).Does 1 b (.ok ()) (b.put k o) := by
  unfold putObject
  exact request_does (fun e _ => ⟨rfl, rfl⟩) (fun e err done he h => rfl)

open Classical in
theorem anyObject_does (pfx : Key) (b : Bucket) :
    (anyObjectWithPrefix pfx).Does 1 b (.ok (decide (∃ k ∈ b.keys, pfx <+: k))) b := by
  unfold anyObjectWithPrefix
  refine request_does (fun e he => ⟨rfl, ?_⟩) (fun e err done he h => rfl)
  have hs := he.2.2.2
  show S3M.lift (.ok (decide (((remaining pfx false none b).take (min e.size 1)).length > 0))) = _
  congr 2
  have hm : min e.size 1 = 1 := by omega
  rw [hm, decide_eq_decide, List.length_take]
  constructor
  · intro h
    have h : 0 < (remaining pfx false none b).length := by omega
    obtain ⟨x, hx⟩ := List.exists_mem_of_length_pos h
    obtain ⟨k, h1, h2, _⟩ := mem_remaining.1 hx
    exact ⟨k, h1, h2⟩
  · rintro ⟨k, h1, h2⟩
    have := List.length_pos_of_mem (mem_remaining (pfx := pfx) (delim := false) (token := none).2
      ⟨k, h1, h2, fun t ht => (by cases ht), rfl⟩)
    omega

theorem mem_keys {b : Bucket} {k : Key} : k ∈ b.keys ↔ (b.get k).isSome = true := by
  have := get_none (b := b) (k := k)
  cases h : b.get k with
  | none => simp [this.1 h]
  | some o =>
    simp only [Option.isSome_some, iff_true]
    apply Classical.byContradiction
    intro hn
    rw [this.2 hn] at h
    cases h

open Classical in
theorem has_does (h : S3Handle) (name : Key) (b : Bucket) :
    (h.has name).Does 2 b (.ok (decide (b.HasNode (joinKey h.name name)))) b := by
  unfold S3Handle.has
  refine (objectExists_does _ _).bind (m := 1) ?_
  cases hg : (b.get (joinKey h.name name)).isSome with
  | true =>
    have : b.HasNode (joinKey h.name name) := .inl (mem_keys.2 hg)
    rw [decide_eq_true this]
    exact (S3M.Does.pure true b).mono (by omega)
  | false =>
    have : b.HasNode (joinKey h.name name) ↔ ∃ k' ∈ b.keys, joinKey h.name name ++ ['/'] <+: k' := by
      constructor
      · rintro (h | h)
        · rw [mem_keys, hg] at h; cases h
        · exact h
      · exact .inr
    rw [decide_eq_decide.2 this]
    exact anyObject_does _ _

open Classical in
theorem exist_does (h : S3Handle) (b : Bucket) :
    h.exist.Does 1 b (.ok (decide (b.Exists h.name))) b := by
  have := anyObject_does (dirPrefix h.name) b
  have e : decide (b.Exists h.name) = decide (∃ k ∈ b.keys, dirPrefix h.name <+: k) := decide_eq_decide.2 Iff.rfl
  rw [e]
  exact this

open Classical in
/-- two markers -/
theorem markers_does (h : S3Handle) (m1 m2 : String) (b : Bucket) {x : S3M Bool}
    (hx : x = (do if ← h.has m1.toList then return true else h.has m2.toList)) :
    x.Does 4 b (.ok (decide (∃ m ∈ [m1, m2], b.HasNode (docKey h.name m)))) b := by
  subst hx
  refine (has_does h m1.toList b).bind (m := 2) ?_
  by_cases h1 : b.HasNode (docKey h.name m1)
  · rw [show decide (b.HasNode (joinKey h.name m1.toList)) = true from decide_eq_true h1]
    rw [decide_eq_true (⟨m1, by simp, h1⟩ : ∃ m ∈ [m1, m2], b.HasNode (docKey h.name m))]
    exact (S3M.Does.pure true b).mono (by omega)
  · rw [show decide (b.HasNode (joinKey h.name m1.toList)) = false from decide_eq_false h1]
    have : (∃ m ∈ [m1, m2], b.HasNode (docKey h.name m)) ↔ b.HasNode (docKey h.name m2) := by
      simp [h1]
    rw [decide_eq_decide.2 this]
    exact has_does h m2.toList b

theorem s3Read_none {b : Bucket} {base : Key} {name : String} (h : b.get (docKey base name) = none) :
    (s3Read base name).Does 1 b (.ok none) b := by
  unfold s3Read
  refine (getObject_does _ b).bind_lift ?_
  rw [h]
  rfl

theorem s3Read_doc {b : Bucket} {base : Key} {name : String} {j : Json} (h : b.docAt (docKey base name) = some j) :
    (s3Read base name).Does 1 b (.ok (some j)) b := by
  unfold s3Read
  refine (getObject_does _ b).bind_lift ?_
  unfold Bucket.docAt at h
  cases hg : b.get (docKey base name) with
  | none => rw [hg] at h; cases h
  | some o =>
    rw [hg] at h
    cases o with
    | doc j' => cases h; rfl
    | file l =>
      cases l with
      | nil => cases h; rfl
      | cons _ _ => cases h

theorem s3Write_does (base : Key) (name : String) (j : Json) (b : Bucket) :
    (s3Write base name j).Does 1 b (.ok ()) (b.put (docKey base name) (.doc j)) := putObject_does _ _ _

theorem docAt_put (b : Bucket) (k : Key) (j : Json) : (b.put k (.doc j)).docAt k = some j := by
  unfold Bucket.docAt
  rw [get_put_self]

theorem docAt_put_ne {b : Bucket} {k k' : Key} {o : S3Obj} (h : k' ≠ k) : (b.put k o).docAt k' = b.docAt k' := by
  unfold Bucket.docAt
  rw [get_put_ne h]

theorem s3_docAt_none {b : Bucket} {k : Key} (h : b.get k = none) : b.docAt k = none := by
  unfold Bucket.docAt
  rw [h]

theorem docAt_some {b : Bucket} {k : Key} {j : Json} (h : b.docAt k = some j) : (b.get k).isSome = true := by
  unfold Bucket.docAt at h
  cases hg : b.get k with
  | none => rw [hg] at h; cases h
  | some o => rfl

theorem joinKey_inj {base x y : Key} (h : joinKey base x = joinKey base y) : x = y := by
  unfold joinKey at h
  split at h
  · exact h
  · have := List.append_cancel_left h
    injection this

theorem docKey_inj {base : Key} {x y : String} (h : docKey base x = docKey base y) : x = y :=
  String.toList_inj.1 (joinKey_inj h)

theorem joinKey_prefix {base x y : Key} (h : joinKey base x ++ ['/'] <+: joinKey base y) : x ++ ['/'] <+: y := by
  unfold joinKey at h
  split at h
  · exact h
  · rw [List.append_assoc, List.prefix_append_right_inj, List.cons_append] at h
    exact (List.cons_prefix_cons.1 h).2

/-! ## attributes -/

theorem Bucket.Node.set {b : Bucket} {name : Key} {L : Layout} {d : Json} {A : AttrMap} (h : b.Node name L)
    (hd : d.IsObject) (h3 : L = .v3 → ∀ a, d.find "attributes" = some a → a.IsObject)
    (hA : ∀ k, A k = docAttr L d k)
    (hr : L = .v3 → ∀ k, k ≠ "attributes" →
      d.find k = (b.docAt (docKey name "zarr.json")).bind (·.find k)) :
    b.OnlyAttributes (b.put (docKey name L.file) (.doc d)) name L A where
  node :=
    { doc := .inr ⟨d, docAt_put _ _ _, hd⟩
      v3 := fun e => by subst e; exact ⟨d, docAt_put _ _ _, hd, h3 rfl⟩
      v2 := fun e => by
        subst e
        rw [get_put_ne (fun e => absurd (docKey_inj e) (by decide))]
        exact h.v2 rfl }
  attributes := by
    funext k
    rw [hA]
    cases L <;> simp only [Bucket.attributes, Layout.file, docAt_put] <;> rfl
  objects := fun k hk => get_put_ne hk
  rest := fun e k hk => by
    subst e
    rw [← hr rfl k hk]
    simp only [Layout.file, docAt_put]
    rfl
  kept := fun _ => by rw [get_put_self]; exact fun h => by cases h
  written := fun _ => by rw [get_put_self]; exact fun h => by cases h
  wf := fun h => put_wf h

theorem Bucket.Node.same {b : Bucket} {name : Key} {L : Layout} {A : AttrMap} (h : b.Node name L)
    (hA : b.attributes name L = A) : b.OnlyAttributes b name L A :=
  ⟨h, hA, fun _ _ => rfl, fun _ _ _ => rfl, id, id, id⟩

theorem isV3_flat {b : Bucket} {name : Key} {L : Layout} (h : b.Node name L) (hL : L ≠ .v3) :
    (GenericS3.isV3 name L.isZarr).Does 1 b (.ok false) b := by
  cases L with
  | v3 => exact absurd rfl hL
  | n5 => exact (S3M.Does.pure false b).mono (by omega)
  | v2 =>
    have := objectExists_does (docKey name "zarr.json") b
    rw [h.v2 rfl] at this
    exact this

theorem isV3_v3 {b : Bucket} {name : Key} (h : b.Node name .v3) :
    (GenericS3.isV3 name Layout.v3.isZarr).Does 1 b (.ok true) b := by
  obtain ⟨j, hj, _⟩ := h.v3 rfl
  have := objectExists_does (docKey name "zarr.json") b
  rw [docAt_some hj] at this
  exact this

theorem attributes_flat {b : Bucket} {name : Key} {L : Layout} (hL : L ≠ .v3) (k : String) :
    b.attributes name L k = (b.docAt (docKey name L.file)).bind (·.find k) := by
  cases L <;> first | rfl | exact absurd rfl hL

theorem s3_write_flat {b : Bucket} {name : Key} {L : Layout} {j : Json} (h : b.Node name L) (hL : L ≠ .v3)
    (hj : j.IsObject) :
    ∃ b', (GenericS3.writeAttributes name L.isZarr j).Does 3 b (.ok ()) b' ∧
      b.OnlyAttributes b' name L ((AttrOp.write j).apply (b.attributes name L)) := by
  obtain ⟨o, ho1, ho2, ho3⟩ : ∃ o, (s3Read name L.file).Does 1 b (.ok o) b ∧ (o.getD (.obj [])).IsObject ∧
      ∀ k, (o.getD (.obj [])).find k = (b.docAt (docKey name L.file)).bind (·.find k) := by
    rcases h.doc with e | ⟨d, e, hd⟩
    · refine ⟨none, s3Read_none e, isObject_empty, fun k => ?_⟩
      rw [s3_docAt_none e]
      rfl
    · refine ⟨some d, s3Read_doc e, hd, fun k => ?_⟩
      rw [e]
      rfl
  obtain ⟨d, d1, d2, d3⟩ := mergeAttributes_ok ho2 hj
  refine ⟨b.put (docKey name L.file) (.doc d), ?_, h.set d2 ?_ ?_ ?_⟩
  · unfold GenericS3.writeAttributes
    rw [flat_name hL]
    refine (isV3_flat h hL).bind (m := 2) ?_
    refine ho1.bind (m := 1) ?_
    show (S3M.lift (mergeAttributes (o.getD (.obj [])) j) >>= fun out => s3Write name L.file out).Does _ _ _ _
    rw [d1]
    exact (S3M.Does.lift (.ok d) b).bind (m := 1) (s3Write_does _ _ _ _)
  · exact fun e => absurd e hL
  · intro k
    rw [docAttr_flat hL, d3]
    simp only [AttrOp.apply, attributes_flat hL, ho3]
    cases j.find k <;> rfl
  · exact fun e => absurd e hL

theorem s3_remove_flat {b : Bucket} {name : Key} {L : Layout} {key : String} (h : b.Node name L) (hL : L ≠ .v3) :
    ∃ b', (GenericS3.removeAttribute name L.isZarr key).Does 3 b (.ok ()) b' ∧
      b.OnlyAttributes b' name L ((AttrOp.remove key).apply (b.attributes name L)) := by
  rcases h.doc with e | ⟨f, e, hf⟩
  · refine ⟨b, ?_, h.same ?_⟩
    · unfold GenericS3.removeAttribute
      rw [flat_name hL]
      refine (isV3_flat h hL).bind (m := 2) ?_
      exact (s3Read_none e).bind (m := 1) ((S3M.Does.pure () b).mono (by omega))
    · funext k
      simp only [AttrOp.apply, attributes_flat hL, s3_docAt_none e]
      split <;> rfl
  · obtain ⟨d, d1, d2, d3⟩ := erase_ok hf key
    refine ⟨b.put (docKey name L.file) (.doc d), ?_, h.set d2 ?_ ?_ ?_⟩
    · unfold GenericS3.removeAttribute
      rw [flat_name hL]
      refine (isV3_flat h hL).bind (m := 2) ?_
      refine (s3Read_doc e).bind (m := 1) ?_
      show (S3M.lift (f.erase key) >>= fun out => s3Write name L.file out).Does _ _ _ _
      rw [d1]
      exact (S3M.Does.lift (.ok d) b).bind (m := 1) (s3Write_does _ _ _ _)
    · exact fun e => absurd e hL
    · intro k
      rw [docAttr_flat hL, d3]
      simp only [AttrOp.apply, attributes_flat hL, e, Option.bind_some]
      by_cases ek : k = key
      · rw [if_pos ek, if_pos ek.symm]
      · rw [if_neg ek, if_neg (Ne.symm ek)]
    · exact fun e => absurd e hL

theorem s3_write {b : Bucket} {name : Key} {L : Layout} {j : Json} (h : b.Node name L) (hj : j.IsObject) :
    ∃ b', (GenericS3.writeAttributes name L.isZarr j).Does 3 b (.ok ()) b' ∧
      b.OnlyAttributes b' name L ((AttrOp.write j).apply (b.attributes name L)) := by
  cases L with
  | v3 =>
    obtain ⟨f, hf, hfo, hfa⟩ := h.v3 rfl
    have ha : ((f.find "attributes").getD (.obj [])).IsObject := by
      cases e : f.find "attributes" with
      | none => exact isObject_empty
      | some a => exact hfa a e
    obtain ⟨a, a1, a2, a3⟩ := mergeAttributes_ok ha hj
    obtain ⟨d, d1, d2, d3⟩ := set_ok hfo "attributes" a
    refine ⟨b.put (docKey name "zarr.json") (.doc d), ?_, h.set d2 ?_ ?_ ?_⟩
    · unfold GenericS3.writeAttributes
      refine (isV3_v3 h).bind (m := 2) ?_
      show (GenericS3.writeV3Attributes name j).Does _ _ _ _
      unfold GenericS3.writeV3Attributes
      refine (s3Read_doc hf).bind (m := 1) ?_
      show (S3M.lift (mergeAttributes ((f.find "attributes").getD (.obj [])) j) >>= fun attrs =>
        S3M.lift (f.set "attributes" attrs) >>= fun full => s3Write name "zarr.json" full).Does _ _ _ _
      rw [a1]
      refine (S3M.Does.lift (.ok a) b).bind (m := 1) ?_
      rw [d1]
      exact (S3M.Does.lift (.ok d) b).bind (m := 1) (s3Write_does _ _ _ _)
    · intro _ c hc
      rw [d3, if_pos rfl] at hc
      cases hc
      exact a2
    · intro k
      show _ = (d.find "attributes").bind _
      rw [d3, if_pos rfl]
      simp only [AttrOp.apply, Bucket.attributes, hf, Option.bind_some, a3]
      cases j.find k with
      | some v => rfl
      | none => cases f.find "attributes" <;> rfl
    · intro _ k hk
      rw [d3, if_neg hk.symm, hf]
      rfl
  | v2 => exact s3_write_flat h (by decide) hj
  | n5 => exact s3_write_flat h (by decide) hj

theorem s3_remove {b : Bucket} {name : Key} {L : Layout} {key : String} (h : b.Node name L) :
    ∃ b', (GenericS3.removeAttribute name L.isZarr key).Does 3 b (.ok ()) b' ∧
      b.OnlyAttributes b' name L ((AttrOp.remove key).apply (b.attributes name L)) := by
  cases L with
  | v3 =>
    obtain ⟨f, hf, hfo, hfa⟩ := h.v3 rfl
    have e0 : ∀ {b'}, ((match f.find "attributes" with
            | none => s3Write name "zarr.json" f
            | some attrs => do
              let attrs ← S3M.lift (attrs.erase key)
              let full ← S3M.lift (f.set "attributes" attrs)
              s3Write name "zarr.json" full : S3M Unit)).Does 1 b (.ok ()) b' →
        (GenericS3.removeAttribute name Layout.v3.isZarr key).Does 3 b (.ok ()) b' := by
      intro b' hb
      unfold GenericS3.removeAttribute
      refine (isV3_v3 h).bind (m := 2) ?_
      show (GenericS3.removeV3Attribute name key).Does _ _ _ _
      unfold GenericS3.removeV3Attribute
      exact (s3Read_doc hf).bind (m := 1) hb
    cases ea : f.find "attributes" with
    | none =>
      refine ⟨b.put (docKey name "zarr.json") (.doc f), e0 ?_, h.set hfo ?_ ?_ ?_⟩
      · rw [ea]
        exact s3Write_does _ _ _ _
      · exact fun _ => hfa
      · intro k
        show _ = (f.find "attributes").bind _
        simp only [AttrOp.apply, Bucket.attributes, hf, Option.bind_some, ea]
        split <;> rfl
      · intro _ k hk
        rw [hf]
        rfl
    | some c =>
      obtain ⟨a, a1, a2, a3⟩ := erase_ok (hfa c ea) key
      obtain ⟨d, d1, d2, d3⟩ := set_ok hfo "attributes" a
      refine ⟨b.put (docKey name "zarr.json") (.doc d), e0 ?_, h.set d2 ?_ ?_ ?_⟩
      · rw [ea]
        show (S3M.lift (c.erase key) >>= fun attrs =>
          S3M.lift (f.set "attributes" attrs) >>= fun full => s3Write name "zarr.json" full).Does _ _ _ _
        rw [a1]
        refine ((S3M.Does.lift (.ok a) b).bind (m := 1) ?_).mono (by omega)
        rw [d1]
        exact (S3M.Does.lift (.ok d) b).bind (m := 1) (s3Write_does _ _ _ _)
      · intro _ c hc
        rw [d3, if_pos rfl] at hc
        cases hc
        exact a2
      · intro k
        show _ = (d.find "attributes").bind _
        rw [d3, if_pos rfl]
        simp only [AttrOp.apply, Bucket.attributes, hf, Option.bind_some, ea, a3]
        by_cases e : k = key
        · rw [if_pos e, if_pos e.symm]
        · rw [if_neg e, if_neg (Ne.symm e)]
      · intro _ k hk
        rw [d3, if_neg hk.symm, hf]
        rfl
  | v2 => exact s3_remove_flat h (by decide)
  | n5 => exact s3_remove_flat h (by decide)

theorem s3_read {b : Bucket} {name : Key} {L : Layout} (h : b.Node name L) :
    ∃ j, (GenericS3.readAttributes name L.isZarr .null).Does 2 b (.ok j) b ∧
      (L ≠ .v3 → b.get (docKey name L.file) ≠ none → j.IsObject) ∧
      ∀ k, j.find k = b.attributes name L k := by
  by_cases hL : L = .v3
  · subst hL
    obtain ⟨f, hf, hfo, hfa⟩ := h.v3 rfl
    refine ⟨(f.find "attributes").getD .null, ?_, fun e => absurd rfl e, fun k => ?_⟩
    · unfold GenericS3.readAttributes
      refine (isV3_v3 h).bind (m := 1) ?_
      show (GenericS3.readV3Attributes name .null).Does _ _ _ _
      unfold GenericS3.readV3Attributes
      exact (s3Read_doc hf).bind (m := 0) (S3M.Does.pure _ b)
    · simp only [Bucket.attributes, hf, Option.bind_some]
      cases f.find "attributes" <;> rfl
  · have e0 : ∀ {o}, (s3Read name L.file).Does 1 b (.ok o) b →
        (GenericS3.readAttributes name L.isZarr .null).Does 2 b (.ok (o.getD .null)) b := by
      intro o ho
      unfold GenericS3.readAttributes
      rw [flat_name hL]
      refine (isV3_flat h hL).bind (m := 1) ?_
      exact ho.bind (m := 0) (S3M.Does.pure _ b)
    rcases h.doc with e | ⟨d, e, hd⟩
    · refine ⟨.null, e0 (s3Read_none e), fun _ hn => absurd e hn, fun k => ?_⟩
      rw [attributes_flat hL, s3_docAt_none e]
      rfl
    · refine ⟨d, e0 (s3Read_doc e), fun _ _ => hd, fun k => ?_⟩
      rw [attributes_flat hL, e]
      rfl

/-! ## handles -/

theorem S3Target.Refers.group_zarr {h : S3Handle} {b : Bucket} {L : Layout}
    (hz : L.isZarr = true ↔ ∃ m ∈ [".zgroup", "zarr.json"], b.HasNode (docKey h.name m)) :
    h.isZarr.Does 4 b (.ok L.isZarr) b := by
  classical
  have := markers_does h ".zgroup" "zarr.json" b (x := h.isZarr) rfl
  have e : decide (∃ m ∈ [".zgroup", "zarr.json"], b.HasNode (docKey h.name m)) = L.isZarr := by
    rw [Bool.eq_iff_iff, decide_eq_true_iff]
    exact hz.symm
  rw [← e]
  exact this

theorem S3Target.Refers.dataset_zarr {d : S3DatasetHandle} {b : Bucket} {L : Layout}
    (h : (S3Target.dataset d).Refers b L) : d.isZarr.Does 4 b (.ok L.isZarr) b := by
  classical
  unfold S3DatasetHandle.isZarr
  cases hc : d.base.cache with
  | some z =>
    rw [← h.cached z hc]
    exact (S3M.Does.pure z b).mono (by omega)
  | none =>
    have := markers_does ⟨d.name, d.base.mode⟩ ".zarray" "zarr.json" b rfl
    have e : decide (∃ m ∈ [".zarray", "zarr.json"], b.HasNode (docKey d.name m)) = L.isZarr := by
      rw [Bool.eq_iff_iff, decide_eq_true_iff]
      exact (h.zarr hc).symm
    rw [← e]
    exact this

/-- Only keys that are not locked can be changed. -/
theorem S3Target.change_does {t : S3Target} {b b' : Bucket} {L : Layout} {op : AttrOp} (hw : t.mode.canWrite = true)
    (h : t.Refers b L) :
    (op.names (t.locked L) = true → (t.change op).Does 11 b (.throw .runtimeError) b) ∧
    (op.names (t.locked L) = false →
      (match op with
        | .write j => GenericS3.writeAttributes t.name L.isZarr j
        | .remove k => GenericS3.removeAttribute t.name L.isZarr k).Does 3 b (.ok ()) b' →
      (t.change op).Does 11 b (.ok ()) b') := by
  cases t with
  | group g =>
    have hw : g.mode.canWrite = true := hw
    have hz := Refers.group_zarr (h := g) (h.zarr rfl)
    have hl : op.names ((group g).locked L) = false := by
      cases op <;> cases L <;> rfl
    rw [hl]
    refine ⟨(fun e => by cases e), fun _ hd => ?_⟩
    cases op with
    | write j =>
      show (g.writeAttributes j).Does _ _ _ _
      unfold S3Handle.writeAttributes
      rw [hw]
      exact (hz.bind (m := 3) hd).mono (by omega)
    | remove k =>
      show (g.removeAttribute k).Does _ _ _ _
      unfold S3Handle.removeAttribute
      rw [hw]
      exact (hz.bind (m := 3) hd).mono (by omega)
  | file g =>
    have hw : g.mode.canWrite = true := hw
    have hz := Refers.group_zarr (h := g) (h.zarr rfl)
    cases L with
    | n5 =>
      cases op with
      | write j =>
        show (_ → (g.writeFileAttributes j).Does _ _ _ _) ∧ (_ → _ → (g.writeFileAttributes j).Does _ _ _ _)
        unfold S3Handle.writeFileAttributes
        rw [hw]
        have he : ((AttrOp.write j).names ["n5"]) = (j.find "n5").isSome := by
          simp [AttrOp.names]
        refine ⟨fun e => ?_, fun e hd => ?_⟩
        · have e : (AttrOp.write j).names ["n5"] = true := e
          rw [he] at e
          refine (hz.bind (m := 0) ?_).mono (by omega)
          show (S3M.lift (protectN5File j) >>= fun _ => _).Does 0 b _ b
          unfold protectN5File
          rw [e]
          exact (S3M.Does.lift (.throw .runtimeError) b).bind_throw
        · have e : (AttrOp.write j).names ["n5"] = false := e
          rw [he] at e
          refine (hz.bind (m := 7) ?_)
          show (S3M.lift (protectN5File j) >>= fun _ => _).Does 7 b _ b'
          unfold protectN5File
          rw [e]
          refine ((S3M.Does.lift (.ok ()) b).bind (m := 7) ?_).mono (by omega)
          exact hz.bind (m := 3) hd
      | remove k =>
        show (_ → (g.removeFileAttribute k).Does _ _ _ _) ∧ (_ → _ → (g.removeFileAttribute k).Does _ _ _ _)
        unfold S3Handle.removeFileAttribute
        rw [hw]
        have he : ((AttrOp.remove k).names ["n5"] = true) ↔ k = "n5" := by
          simp [AttrOp.names]
        refine ⟨fun e => ?_, fun e hd => ?_⟩
        · have e : (AttrOp.remove k).names ["n5"] = true := e
          rw [he] at e
          refine (hz.bind (m := 0) ?_).mono (by omega)
          subst e
          exact (S3M.Does.lift (.throw .runtimeError) b).bind_throw
        · have e : (AttrOp.remove k).names ["n5"] = false := e
          have e : ¬ k = "n5" := fun e' => by rw [he.2 e'] at e; cases e
          refine (hz.bind (m := 7) ?_)
          show (if k = "n5" then (S3M.lift (.throw .runtimeError) >>= fun _ => g.isZarr >>= fun z =>
              GenericS3.removeAttribute g.name z k)
            else g.isZarr >>= fun z => GenericS3.removeAttribute g.name z k).Does 7 b _ b'
          rw [if_neg e]
          exact hz.bind (m := 3) hd
    | _ =>
      have hl : op.names [] = false := by cases op <;> rfl
      refine ⟨fun e => absurd (hl.symm.trans e) (by decide), fun _ hd => ?_⟩
      cases op with
      | write j =>
        show (g.writeFileAttributes j).Does _ _ _ _
        unfold S3Handle.writeFileAttributes
        rw [hw]
        refine hz.bind (m := 7) ?_
        exact hz.bind (m := 3) hd
      | remove k =>
        show (g.removeFileAttribute k).Does _ _ _ _
        unfold S3Handle.removeFileAttribute
        rw [hw]
        refine hz.bind (m := 7) ?_
        exact hz.bind (m := 3) hd
  | dataset d =>
    have hw : d.base.mode.canWrite = true := hw
    have hz := h.dataset_zarr
    cases L with
    | n5 =>
      cases op with
      | write j =>
        show (_ → (d.writeAttributes j).Does _ _ _ _) ∧ (_ → _ → (d.writeAttributes j).Does _ _ _ _)
        unfold S3DatasetHandle.writeAttributes
        rw [hw]
        refine ⟨fun e => ?_, fun e hd => ?_⟩
        · refine (hz.bind (m := 0) ?_).mono (by omega)
          show (S3M.lift (protectN5Dataset j) >>= fun _ => _).Does 0 b _ b
          rw [protectN5_eq, show (AttrOp.write j).names n5DatasetKeys = true from e]
          exact (S3M.Does.lift (.throw .runtimeError) b).bind_throw
        · refine (hz.bind (m := 3) ?_).mono (by omega)
          show (S3M.lift (protectN5Dataset j) >>= fun _ => _).Does 3 b _ b'
          rw [protectN5_eq, show (AttrOp.write j).names n5DatasetKeys = false from e]
          exact ((S3M.Does.lift (.ok ()) b).bind (m := 3) hd).mono (by omega)
      | remove k =>
        show (_ → (d.removeAttribute k).Does _ _ _ _) ∧ (_ → _ → (d.removeAttribute k).Does _ _ _ _)
        unfold S3DatasetHandle.removeAttribute
        rw [hw]
        refine ⟨fun e => ?_, fun e hd => ?_⟩
        · refine (hz.bind (m := 0) ?_).mono (by omega)
          show (if n5DatasetKeys.contains k = true then (S3M.lift (.throw .runtimeError) >>= fun _ =>
              GenericS3.removeAttribute d.name false k)
            else GenericS3.removeAttribute d.name false k).Does 0 b _ b
          rw [if_pos (show n5DatasetKeys.contains k = true from e)]
          exact (S3M.Does.lift (.throw .runtimeError) b).bind_throw
        · refine (hz.bind (m := 3) ?_).mono (by omega)
          have e : n5DatasetKeys.contains k = false := e
          show (if n5DatasetKeys.contains k = true then (S3M.lift (.throw .runtimeError) >>= fun _ =>
              GenericS3.removeAttribute d.name false k)
            else GenericS3.removeAttribute d.name false k).Does 3 b _ b'
          rw [if_neg (by rw [e]; decide)]
          exact hd
    | _ =>
      have hl : op.names [] = false := by cases op <;> rfl
      refine ⟨fun e => absurd (hl.symm.trans e) (by decide), fun _ hd => ?_⟩
      cases op with
      | write j =>
        show (d.writeAttributes j).Does _ _ _ _
        unfold S3DatasetHandle.writeAttributes
        rw [hw]
        exact (hz.bind (m := 3) hd).mono (by omega)
      | remove k =>
        show (d.removeAttribute k).Does _ _ _ _
        unfold S3DatasetHandle.removeAttribute
        rw [hw]
        exact (hz.bind (m := 3) hd).mono (by omega)

theorem Bucket.OnlyAttributes.mem_keys {b b' : Bucket} {name : Key} {L : Layout} {A : AttrMap}
    (h : b.OnlyAttributes b' name L A) {k : Key} (hk : k ≠ docKey name L.file) : k ∈ b'.keys ↔ k ∈ b.keys := by
  rw [Z5.mem_keys, Z5.mem_keys, h.objects k hk]

/-- Changing attributes does not change what tells zarr from N5. -/
theorem Bucket.OnlyAttributes.hasNode {b b' : Bucket} {name : Key} {L : Layout} {A : AttrMap} (hn : b.Node name L)
    (h : b.OnlyAttributes b' name L A) {m : String} (hm : m = ".zgroup" ∨ m = ".zarray" ∨ m = "zarr.json") :
    b'.HasNode (docKey name m) ↔ b.HasNode (docKey name m) := by
  by_cases hL : m = L.file
  · have hL3 : L = .v3 := by
      rcases hm with rfl | rfl | rfl <;> cases L <;> first | rfl | exact absurd hL (by decide)
    subst hL3
    subst hL
    obtain ⟨j, hj, _⟩ := hn.v3 rfl
    obtain ⟨j', hj', _⟩ := h.node.v3 rfl
    exact ⟨fun _ => .inl (Z5.mem_keys.2 (docAt_some hj)), fun _ => .inl (Z5.mem_keys.2 (docAt_some hj'))⟩
  · have h1 : docKey name m ≠ docKey name L.file := fun e => hL (docKey_inj e)
    have h2 : ∀ k, docKey name m ++ ['/'] <+: k → k ≠ docKey name L.file := by
      rintro k hp rfl
      have := joinKey_prefix hp
      revert this
      rcases hm with rfl | rfl | rfl <;> cases L <;> decide
    unfold Bucket.HasNode
    rw [h.mem_keys h1]
    constructor
    · rintro (h' | ⟨k, hk, hp⟩)
      · exact .inl h'
      · exact .inr ⟨k, (h.mem_keys (h2 k hp)).1 hk, hp⟩
    · rintro (h' | ⟨k, hk, hp⟩)
      · exact .inl h'
      · exact .inr ⟨k, (h.mem_keys (h2 k hp)).2 hk, hp⟩

theorem S3Target.Refers.after {t : S3Target} {b b' : Bucket} {L : Layout} {A : AttrMap} (h : t.Refers b L)
    (hc : b.OnlyAttributes b' t.name L A) : t.Refers b' L where
  node := hc.node
  zarr := fun hn => by
    rw [h.zarr hn]
    have hm : ∀ m ∈ t.markers, m = ".zgroup" ∨ m = ".zarray" ∨ m = "zarr.json" := by
      cases t <;> simp [markers]
    constructor
    · rintro ⟨m, h1, h2⟩
      exact ⟨m, h1, (hc.hasNode h.node (hm m h1)).2 h2⟩
    · rintro ⟨m, h1, h2⟩
      exact ⟨m, h1, (hc.hasNode h.node (hm m h1)).1 h2⟩
  cached := h.cached
  dataset := fun d e hL => by
    have := hc.kept
    rw [hL] at this
    exact this (h.dataset d e hL)

theorem S3Target.read_does {t : S3Target} {b : Bucket} {L : Layout} (h : t.Refers b L) :
    ∃ j, t.read.Does 6 b (.ok j) b ∧ ∀ k, j.find k = t.shown L (b.attributes t.name L) k := by
  obtain ⟨j, h1, h3, h4⟩ := s3_read h.node
  cases t with
  | group g =>
    exact ⟨j, (Refers.group_zarr (h := g) (h.zarr rfl)).bind (m := 2) h1, fun k => (h4 k).trans (by cases L <;> rfl)⟩
  | file g =>
    exact ⟨j, (Refers.group_zarr (h := g) (h.zarr rfl)).bind (m := 2) h1, fun k => (h4 k).trans (by cases L <;> rfl)⟩
  | dataset d =>
    have hz := h.dataset_zarr
    cases L with
    | n5 =>
      obtain ⟨e, e1, e2, e3⟩ := hideN5_ok (h3 (by decide) (h.dataset d rfl rfl))
      refine ⟨e, ?_, fun k => ?_⟩
      · refine hz.bind (m := 2) (h1.bind (m := 0) ?_)
        show (S3M.lift (hideN5Dataset j)).Does _ _ _ _
        rw [e1]
        exact .lift _ _
      · rw [e3, h4]
        rfl
    | v2 => exact ⟨j, hz.bind (m := 2) (h1.bind (m := 0) (.pure _ _)), fun k => (h4 k).trans rfl⟩
    | v3 => exact ⟨j, hz.bind (m := 2) (h1.bind (m := 0) (.pure _ _)), fun k => (h4 k).trans rfl⟩

end Z5
