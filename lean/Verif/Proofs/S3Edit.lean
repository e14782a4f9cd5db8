import Verif.Proofs.S3Watch

/-!
# Calls on S3 that make one change while others change the bucket
-/

namespace Z5

variable {α β : Type} {S : Bucket → Prop} {Q : Res α → Prop} {P : β → Bucket → Bucket → Prop}

theorem statesOf_self (es : List Event) (b : Bucket) : b ∈ statesOf es b := by
  cases es <;> exact List.mem_cons_self

/-- looks, then a call that makes one change -/
theorem S3M.Edits.after {x : S3M α} {K : α → S3M β} (hx : x.Looks S Q) (hok : ∀ a, Q (.ok a) → (K a).Edits S P)
    (hth : ∀ e, ¬ Q (.throw e)) (hub : ¬ Q .ub) : (x >>= K).Edits S P := fun es b h1 h2 => by
  rcases hx es b h1 h2 with ⟨r, es', b', e1, e2, e3, e4⟩ | ⟨b', e, hb⟩
  · have hb := e3.mem (statesOf_self es' b')
    rcases e4 with e4 | ⟨rfl, e5⟩
    · cases r with
      | ok a =>
        rw [S3M.run_bind e1]
        rcases hok a e4 es' b' (fun e he => h1 e (e2.mem he)) (fun c hc => h2 c (e3.mem hc)) with
          ⟨r, es'', c, hc, c', f1, f2⟩ | ⟨c, hc, f⟩
        · exact .inl ⟨r, es'', c, e3.mem hc, c', f1, f2.imp id fun ⟨g1, g2, e, g3, g4⟩ => ⟨g1, g2, e, e2.mem g3, g4⟩⟩
        · exact .inr ⟨c, e3.mem hc, f⟩
      | throw e => exact absurd e4 (hth e)
      | ub => exact absurd e4 hub
    · refine .inl ⟨.throw .runtimeError, es', b', hb, b', ?_, .inr ⟨rfl, .inl rfl, e5⟩⟩
      rw [S3M.bind_eq, e1]
  · refine .inr ⟨b', hb, ?_⟩
    rw [S3M.bind_eq, e]

theorem S3M.Edits.lift {r : Res α} {a : α} (hr : r = .ok a) {K : α → S3M β} (h : (K a).Edits S P) : (S3M.lift r >>= K).Edits S P := by
  subst hr
  exact h

theorem S3M.Edits.mono {x : S3M β} {P' : β → Bucket → Bucket → Prop} (h : ∀ a b b', S b → P a b b' → P' a b b') (hx : x.Edits S P) :
    x.Edits S P' := fun es b h1 h2 => by
  rcases hx es b h1 h2 with ⟨r, es', c, hc, c', f1, f2⟩ | f
  · refine .inl ⟨r, es', c, hc, c', f1, ?_⟩
    rcases f2 with ⟨a, g1, g2⟩ | ⟨g1, g2, g3⟩
    · exact .inl ⟨a, g1, h _ _ _ (h2 c hc) g2⟩
    · exact .inr ⟨g1, g2.imp id fun ⟨a, g⟩ => ⟨a, h _ _ _ (h2 c hc) g⟩, g3⟩
  · exact .inr f

/-- a call that makes one change, then a value -/
theorem S3M.Edits.then_value {x : S3M α} {K : α → S3M β} {P : α → Bucket → Bucket → Prop} {v : β} (hx : x.Edits S P)
    (hv : ∀ a, K a = S3M.lift (.ok v)) : (x >>= K).Edits S fun a b b' => a = v ∧ ∃ c, P c b b' := fun es b h1 h2 => by
  rcases hx es b h1 h2 with ⟨r, es', c, hc, c', f1, ⟨a, rfl, f2⟩ | ⟨rfl, f2, f3⟩⟩ | ⟨c, hc, f⟩
  · refine .inl ⟨.ok v, es', c, hc, c', ?_, .inl ⟨v, rfl, rfl, a, f2⟩⟩
    rw [S3M.run_bind f1, hv]
    rfl
  · refine .inl ⟨.throw .runtimeError, es', c, hc, c', ?_, .inr ⟨rfl, f2.imp id fun h => ⟨v, rfl, h⟩, f3⟩⟩
    rw [S3M.bind_eq, f1]
  · refine .inr ⟨c, hc, ?_⟩
    rw [S3M.bind_eq, f]

/-- A document that is put, or none -/
def putDoc (k : Key) (c : Option Json) (b : Bucket) : Bucket :=
  match c with
  | some d => b.put k (.doc d)
  | none => b

theorem pure_edits (k : Key) : (Pure.pure () : S3M Unit).Edits S fun _ b b' => b' = putDoc k none b := fun es b _ _ =>
  .inl ⟨.ok (), es, b, statesOf_self es b, b, rfl, .inl ⟨(), rfl, rfl⟩⟩

theorem s3Write_edits (name : Key) (n : String) (j : Json) :
    (s3Write name n j).Edits S fun _ b b' => b' = putDoc (docKey name n) (some j) b := by
  intro es b hes hS
  unfold s3Write putObject
  rcases es with _ | ⟨e, es⟩
  · exact .inr ⟨b, List.mem_cons_self, rfl⟩
  · have hrun : request .put (putReq (docKey name n) (.doc j)) ⟨e :: es, b⟩ =
      (some (.ok (e.serve .put (putReq (docKey name n) (.doc j)) b).1), ⟨es, (e.serve .put (putReq (docKey name n) (.doc j)) b).2⟩) := rfl
    have hb : e.change b ∈ statesOf (e :: es) b := List.mem_cons_of_mem _ (statesOf_self _ _)
    rw [S3M.run_bind hrun]
    cases hk : e.error .put with
    | none =>
      have hs : e.serve .put (putReq (docKey name n) (.doc j)) b = putReq (docKey name n) (.doc j) e (e.change b) := by
        unfold Event.serve
        rw [hk]
      rw [hs]
      exact .inl ⟨.ok (), es, e.change b, hb, _, rfl, .inl ⟨(), rfl, rfl⟩⟩
    | some p =>
      obtain ⟨err, done⟩ := p
      have hs : e.serve .put (putReq (docKey name n) (.doc j)) b =
          (.error err, if done = true then (e.change b).put (docKey name n) (.doc j) else e.change b) := by
        unfold Event.serve
        rw [hk]
        rfl
      rw [hs]
      refine .inl ⟨.throw .runtimeError, es, e.change b, hb, _, rfl, .inr ⟨rfl, ?_, e, List.mem_cons_self, .put, by rw [hk]; exact fun h => by cases h⟩⟩
      cases done
      · exact .inl rfl
      · exact .inr ⟨(), rfl⟩

variable {E : Err → Prop}

theorem S3M.Edits.tries {x : S3M β} (h : x.Edits S P) : x.Tries S P E := fun es b h1 h2 => by
  rcases h es b h1 h2 with ⟨r, es', c, hc, c', f1, f2⟩ | f
  · exact .inl ⟨r, es', c, hc, c', f1, f2.imp id .inr⟩
  · exact .inr f

/-- looks, then a call that makes one change or is refused -/
theorem S3M.Tries.after {x : S3M α} {K : α → S3M β} (hx : x.Looks S Q) (hok : ∀ a, Q (.ok a) → (K a).Tries S P E)
    (hth : ∀ e, Q (.throw e) → E e) (hub : ¬ Q .ub) : (x >>= K).Tries S P E := fun es b h1 h2 => by
  rcases hx es b h1 h2 with ⟨r, es', b', e1, e2, e3, e4⟩ | ⟨b', e, hb⟩
  · have hb := e3.mem (statesOf_self es' b')
    rcases e4 with e4 | ⟨rfl, e5⟩
    · cases r with
      | ok a =>
        rw [S3M.run_bind e1]
        rcases hok a e4 es' b' (fun e he => h1 e (e2.mem he)) (fun c hc => h2 c (e3.mem hc)) with
          ⟨r, es'', c, hc, c', f1, f2⟩ | ⟨c, hc, f⟩
        · exact .inl ⟨r, es'', c, e3.mem hc, c', f1, f2.imp id (Or.imp id fun ⟨g1, g2, e, g3, g4⟩ => ⟨g1, g2, e, e2.mem g3, g4⟩)⟩
        · exact .inr ⟨c, e3.mem hc, f⟩
      | throw e =>
        refine .inl ⟨.throw e, es', b', hb, b', ?_, .inr (.inl ⟨e, rfl, rfl, hth e e4⟩)⟩
        rw [S3M.bind_eq, e1]
      | ub => exact absurd e4 hub
    · refine .inl ⟨.throw .runtimeError, es', b', hb, b', ?_, .inr (.inr ⟨rfl, .inl rfl, e5⟩)⟩
      rw [S3M.bind_eq, e1]
  · refine .inr ⟨b', hb, ?_⟩
    rw [S3M.bind_eq, e]

end Z5
