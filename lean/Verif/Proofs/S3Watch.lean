import Verif.Spec.S3Watch
import Verif.Proofs.S3Nodes

/-!
# Calls on S3 during which others change the bucket
-/

namespace Z5

namespace S3M.Looks

variable {α β : Type} {S : Bucket → Prop} {Q : Res α → Prop} {R : Res β → Prop}

theorem lift {r : Res α} (h : Q r) : (S3M.lift r).Looks S Q := fun es b _ _ =>
  .inl ⟨r, es, b, rfl, List.suffix_refl _, List.suffix_refl _, .inl h⟩

theorem pure {a : α} (h : Q (.ok a)) : (Pure.pure a : S3M α).Looks S Q := fun es b _ _ =>
  .inl ⟨.ok a, es, b, rfl, List.suffix_refl _, List.suffix_refl _, .inl h⟩

theorem mono {x : S3M α} {Q' : Res α → Prop} (h : ∀ r, Q r → Q' r) (hx : x.Looks S Q) : x.Looks S Q' := fun es b h1 h2 => by
  rcases hx es b h1 h2 with ⟨r, es', b', e1, e2, e3, e4⟩ | e
  · exact .inl ⟨r, es', b', e1, e2, e3, e4.imp (h r) id⟩
  · exact .inr e

theorem bind {x : S3M α} {K : α → S3M β} (hx : x.Looks S Q) (hok : ∀ a, Q (.ok a) → (K a).Looks S R) (hth : ∀ e, Q (.throw e) → R (.throw e))
    (hub : Q .ub → R .ub) : (x >>= K).Looks S R := fun es b h1 h2 => by
  rcases hx es b h1 h2 with ⟨r, es', b', e1, e2, e3, e4⟩ | ⟨b', e, hb⟩
  · cases r with
    | ok a =>
      rw [S3M.run_bind e1]
      rcases e4 with e4 | ⟨e4, _⟩
      · rcases hok a e4 es' b' (fun e he => h1 e (e2.mem he)) (fun c hc => h2 c (e3.mem hc)) with ⟨r, es'', b'', f1, f2, f3, f4⟩ | f
        · refine .inl ⟨r, es'', b'', f1, f2.trans e2, f3.trans e3, f4.imp id fun ⟨g1, e, g2, g3⟩ => ⟨g1, e, e2.mem g2, g3⟩⟩
        · exact .inr (f.imp fun c hc => ⟨hc.1, e3.mem hc.2⟩)
      · cases e4
    | throw e =>
      refine .inl ⟨.throw e, es', b', ?_, e2, e3, ?_⟩
      · rw [S3M.bind_eq, e1]
      · rcases e4 with e4 | ⟨e4, e5⟩
        · exact .inl (hth e e4)
        · cases e4
          exact .inr ⟨rfl, e5⟩
    | ub =>
      refine .inl ⟨.ub, es', b', ?_, e2, e3, ?_⟩
      · rw [S3M.bind_eq, e1]
      · rcases e4 with e4 | ⟨e4, _⟩
        · exact .inl (hub e4)
        · cases e4
  · refine .inr ⟨b', ?_, hb⟩
    rw [S3M.bind_eq, e]

end S3M.Looks

variable {α β : Type} {S : Bucket → Prop} {R : Res β → Prop}

/-- a request that changes nothing -/
theorem request_looks {kind : ReqKind} {f : Event → Bucket → Except S3Err α × Bucket} {g : Except S3Err α → S3M β}
    (hsame : ∀ e b, (f e b).2 = b)
    (hok : ∀ e b, e.Answers → S b → ∃ r, g (f e b).1 = S3M.lift r ∧ R r)
    (herr : ∀ (e : Event) (err : S3Err) (done : Bool), e.Answers → e.error kind = some (err, done) →
      g (.error err) = S3M.lift (.throw .runtimeError)) :
    (request kind f >>= g).Looks S R := by
  intro es b hes hS
  rcases es with _ | ⟨e, es⟩
  · exact .inr ⟨b, rfl, List.mem_cons_self⟩
  · have he := hes e List.mem_cons_self
    have hrun : request kind f ⟨e :: es, b⟩ = (some (.ok (e.serve kind f b).1), ⟨es, (e.serve kind f b).2⟩) := rfl
    have hb : e.change b ∈ statesOf (e :: es) b := by
      refine List.mem_cons_of_mem _ ?_
      cases es <;> exact List.mem_cons_self
    rw [S3M.run_bind hrun]
    cases hk : e.error kind with
    | none =>
      have hs : e.serve kind f b = f e (e.change b) := by
        unfold Event.serve
        rw [hk]
      obtain ⟨r, h1, h2⟩ := hok e _ he (hS _ hb)
      rw [hs, h1, hsame]
      exact .inl ⟨r, es, e.change b, rfl, List.suffix_cons _ _, List.suffix_cons _ _, .inl h2⟩
    | some p =>
      obtain ⟨err, done⟩ := p
      have hs : e.serve kind f b = (.error err, e.change b) := by
        unfold Event.serve
        rw [hk]
        show (_, if done = true then (f e (e.change b)).2 else e.change b) = _
        rw [hsame]
        simp
      rw [hs, herr e err done he hk]
      exact .inl ⟨_, es, e.change b, rfl, List.suffix_cons _ _, List.suffix_cons _ _,
        .inr ⟨rfl, e, List.mem_cons_self, kind, by rw [hk]; exact fun h => by cases h⟩⟩

theorem getObject_looks (k : Key) : (getObject k).Looks S fun r => ∃ b, S b ∧ r = .ok (b.get k) := by
  unfold getObject
  refine request_looks (fun e b => ?_) (fun e b _ hb => ⟨.ok (b.get k), ?_, b, hb, rfl⟩) (fun e err done he h => ?_)
  · unfold getReq
    split <;> rfl
  · unfold getReq
    cases b.get k <;> rfl
  · cases err with
    | notFound => exact absurd h (he.2.1 done)
    | other => rfl

theorem objectExists_looks (k : Key) : (objectExists k).Looks S fun r => ∃ b, S b ∧ r = .ok (b.get k).isSome := by
  unfold objectExists
  refine request_looks (fun e b => ?_) (fun e b _ hb => ⟨.ok (b.get k).isSome, ?_, b, hb, rfl⟩) (fun e err done he h => ?_)
  · unfold headReq
    split <;> rfl
  · unfold headReq
    cases b.get k <;> rfl
  · rw [he.1] at h
    cases h

open Classical in
theorem anyObject_looks (pfx : Key) : (anyObjectWithPrefix pfx).Looks S fun r => ∃ b, S b ∧ r = .ok (decide (∃ k ∈ b.keys, pfx <+: k)) := by
  unfold anyObjectWithPrefix
  refine request_looks (fun e b => ?_) (fun e b he hb => ⟨_, ?_, b, hb, rfl⟩) (fun e err done he h => rfl)
  · rfl
  have hs := he.2.2
  show S3M.lift (.ok (decide (((remaining pfx false none b).take (min e.size 1)).length > 0))) = _
  congr 2
  have hm : min e.size 1 = 1 := by omega
  rw [hm, decide_eq_decide, List.length_take]
  constructor
  · intro h
    have h : 0 < (remaining pfx false none b).length := by omega
    obtain ⟨x, hx⟩ := List.exists_mem_of_length_pos h
    obtain ⟨k, h1, h2, _⟩ := mem_remaining.1 hx
    exact ⟨k, h1, h2⟩
  · rintro ⟨k, h1, h2⟩
    have := List.length_pos_of_mem (mem_remaining (pfx := pfx) (delim := false) (token := none).2
      ⟨k, h1, h2, fun t ht => (by cases ht), rfl⟩)
    omega

/-- an object that is there all the time -/
theorem has_looks (h : S3Handle) {name : Key} (hn : ∀ b, S b → (b.get (joinKey h.name name)).isSome = true) :
    (h.has name).Looks S (· = .ok true) := by
  unfold S3Handle.has
  refine (objectExists_looks _).bind (fun a ha => ?_) (fun e he => ?_) (fun he => ?_)
  · obtain ⟨b, hb, e⟩ := ha
    cases e
    rw [hn b hb]
    exact .pure rfl
  · obtain ⟨_, _, e⟩ := he; cases e
  · obtain ⟨_, _, e⟩ := he; cases e

theorem has_any (h : S3Handle) (name : Key) : (h.has name).Looks S fun r => ∃ v, r = .ok v := by
  unfold S3Handle.has
  refine (objectExists_looks _).bind (fun a ha => ?_) (fun e he => ?_) (fun he => ?_)
  · cases a with
    | true => exact .pure ⟨_, rfl⟩
    | false => exact (anyObject_looks _).mono fun r ⟨_, _, e⟩ => ⟨_, e⟩
  · obtain ⟨_, _, e⟩ := he; cases e
  · obtain ⟨_, _, e⟩ := he; cases e

/-- two markers, of which one is there all the time -/
theorem markers_looks (h : S3Handle) {m1 m2 : String} {m : String} (hm : m = m1 ∨ m = m2)
    (hn : ∀ b, S b → (b.get (docKey h.name m)).isSome = true) {x : S3M Bool}
    (hx : x = (do if ← h.has m1.toList then return true else h.has m2.toList)) : x.Looks S (· = .ok true) := by
  subst hx
  rcases hm with rfl | rfl
  · refine (has_looks h hn).bind (fun a ha => ?_) (fun e he => by cases he) (fun he => by cases he)
    cases ha
    exact .pure rfl
  · refine (has_any h _).bind (fun a _ => ?_) (fun e he => ?_) (fun he => ?_)
    · cases a with
      | true => exact .pure rfl
      | false => exact has_looks h hn
    · obtain ⟨_, e⟩ := he; cases e
    · obtain ⟨_, e⟩ := he; cases e

/-- a document that is none or an object all the time -/
theorem s3Read_looks {base : Key} {name : String} (hn : ∀ b, S b → b.get (docKey base name) = none ∨ ∃ j, b.docAt (docKey base name) = some j) :
    (s3Read base name).Looks S fun r => ∃ b, S b ∧ r = .ok (b.docAt (docKey base name)) := by
  unfold s3Read
  refine (getObject_looks _).bind (fun a ha => ?_) (fun e he => ?_) (fun he => ?_)
  · obtain ⟨b, hb, e⟩ := ha
    cases e
    have hd : ∀ o, b.get (docKey base name) = some o → ∃ j, b.docAt (docKey base name) = some j := fun o ho => by
      rcases hn b hb with e | e
      · rw [ho] at e; cases e
      · exact e
    cases e : b.get (docKey base name) with
    | none => exact .pure ⟨b, hb, by rw [s3_docAt_none e]⟩
    | some o =>
      obtain ⟨j, hj⟩ := hd o e
      unfold Bucket.docAt at hj
      rw [e] at hj
      cases o with
      | doc j' => exact .pure ⟨b, hb, by unfold Bucket.docAt; rw [e]⟩
      | file l =>
        cases l with
        | nil => exact .pure ⟨b, hb, by unfold Bucket.docAt; rw [e]⟩
        | cons _ _ => cases hj
  · obtain ⟨_, _, e⟩ := he; cases e
  · obtain ⟨_, _, e⟩ := he; cases e

end Z5
