import Verif.Spec.Visit

/-!
# Lemmas for `visititems`
-/

namespace Z5

variable {M : Type → Type} [Monad M] {G D N T : Type} {s v : Type}

/-- the objects that are met, with the names that lead to them -/
def walk (K : G → List N) (I : G → N → G ⊕ D) : Nat → G → List (List N × (G ⊕ D))
  | 0, _ => []
  | n + 1, g => (K g).flatMap fun x => ([x], I g x) ::
      match I g x with
      | .inl g' => (walk K I n g').map fun p => (x :: p.1, p.2)
      | .inr _ => []

/-- every access succeeds, and the recursion ends -/
def Walks (R : ∀ {α : Type}, M α → α → Prop) (P : PyMapping M G D N T) (K : G → List N) (I : G → N → G ⊕ D) :
    Nat → G → Prop
  | 0, _ => False
  | n + 1, g => R (P.keys g) (K g) ∧ ∀ x ∈ K g, R (P.item g x) (I g x) ∧ ∀ g', I g x = .inl g' → Walks R P K I n g'

theorem callUntil_append {A : Type} (func : A → s → Option v × s) (l m : List A) (st : s) :
    callUntil func (l ++ m) st = match callUntil func l st with
      | (some r, st) => (some r, st)
      | (none, st) => callUntil func m st := by
  induction l generalizing st with
  | nil => rfl
  | cons a l ih =>
    simp only [List.cons_append, callUntil]
    rcases func a st with ⟨_ | r, st'⟩
    · exact ih st'
    · rfl

theorem callUntil_map {A B : Type} (f : B → A) (func : A → s → Option v × s) (l : List B) (st : s) :
    callUntil func (l.map f) st = callUntil (fun b => func (f b)) l st := by
  induction l generalizing st with
  | nil => rfl
  | cons a l ih =>
    simp only [List.map_cons, callUntil]
    rcases func (f a) st with ⟨_ | r, st'⟩
    · exact ih st'
    · rfl

/-- A call gives what calling `func` on the objects gives. -/
theorem visit_gives (R : ∀ {α : Type}, M α → α → Prop) (hp : ∀ {α : Type} (a : α), R (pure a : M α) a)
    (hb : ∀ {α β : Type} {x : M α} {f : α → M β} {a : α} {b : β}, R x a → R (f a) b → R (x >>= f) b)
    (P : PyMapping M G D N T) (K : G → List N) (I : G → N → G ⊕ D) (root : G) (func : T → G ⊕ D → s → Option v × s) :
    ∀ (n : Nat) (g : G) (st : s), Walks R P K I n g →
      R (visitItems P root func n g st)
        (callUntil (fun p : List N × (G ⊕ D) => func (P.relative root p.2) p.2) (walk K I n g) st) := by
  intro n
  induction n with
  | zero => intro g st h; exact h.elim
  | succ n ih =>
    intro g st ⟨hk, hi⟩
    refine hb hk ?_
    show R (visitLoop P root func (visitItems P root func n) g (K g) st) _
    suffices ∀ (l : List N), (∀ x ∈ l, x ∈ K g) → ∀ st,
        R (visitLoop P root func (visitItems P root func n) g l st)
          (callUntil (fun p : List N × (G ⊕ D) => func (P.relative root p.2) p.2) (l.flatMap fun x => ([x], I g x) ::
            match I g x with
            | .inl g' => (walk K I n g').map fun p => (x :: p.1, p.2)
            | .inr _ => []) st) from this _ (fun _ h => h) st
    intro l hl
    induction l with
    | nil => intro st; exact hp _
    | cons x l ihl =>
      intro st
      have ihl := ihl fun y hy => hl y (List.mem_cons_of_mem _ hy)
      obtain ⟨h1, h2⟩ := hi x (hl x List.mem_cons_self)
      refine hb h1 ?_
      simp only [List.flatMap_cons, List.cons_append, callUntil]
      rcases func (P.relative root (I g x)) (I g x) st with ⟨_ | r, st'⟩
      · dsimp only
        cases ho : I g x with
        | inr d => exact ihl st'
        | inl g' =>
          dsimp only
          refine hb (ih g' st' (h2 g' ho)) ?_
          rw [callUntil_append, callUntil_map]
          rcases callUntil (fun p : List N × (G ⊕ D) => func (P.relative root p.2) p.2) (walk K I n g') st' with
            ⟨_ | r, st''⟩
          · exact ihl st''
          · exact hp _
      · exact hp _

/-- members by induction on the names -/
theorem mem_walk {K : G → List N} {I : G → N → G ⊕ D} {n : Nat} {g : G} {rel : List N} {obj : G ⊕ D} :
    (rel, obj) ∈ walk K I (n + 1) g ↔ ∃ x ∈ K g, (rel = [x] ∧ obj = I g x) ∨
      ∃ g' rel', I g x = .inl g' ∧ rel = x :: rel' ∧ (rel', obj) ∈ walk K I n g' := by
  simp only [walk, List.mem_flatMap, List.mem_cons, Prod.mk.injEq]
  constructor
  · rintro ⟨x, hx, h | h⟩
    · exact ⟨x, hx, .inl h⟩
    · cases ho : I g x with
      | inr d => rw [ho] at h; cases h
      | inl g' =>
        rw [ho] at h
        obtain ⟨⟨rel', o⟩, hp, e⟩ := List.mem_map.1 h
        injection e with e1 e2
        exact ⟨x, hx, .inr ⟨g', rel', ho ▸ rfl, e1.symm, e2 ▸ hp⟩⟩
  · rintro ⟨x, hx, h | ⟨g', rel', ho, e, h⟩⟩
    · exact ⟨x, hx, .inl h⟩
    · refine ⟨x, hx, .inr ?_⟩
      rw [ho]
      exact List.mem_map.2 ⟨(rel', obj), h, by rw [e]⟩

/-- A group comes before its members, and nothing comes twice. -/
theorem walk_order {K : G → List N} {I : G → N → G ⊕ D} (hK : ∀ g, (K g).Nodup) :
    ∀ n g, (walk K I n g).Pairwise fun p q => ¬ q.1 <+: p.1 := by
  have hne : ∀ n g p, p ∈ walk K I n g → p.1 ≠ [] := by
    rintro (_ | n) g ⟨rel, obj⟩ h
    · cases h
    · obtain ⟨x, -, ⟨rfl, -⟩ | ⟨_, _, -, rfl, -⟩⟩ := mem_walk.1 h <;> exact List.cons_ne_nil _ _
  intro n
  induction n with
  | zero => intro g; exact List.Pairwise.nil
  | succ n ih =>
    intro g
    simp only [walk, List.pairwise_flatMap]
    have hhead : ∀ x, ∀ p ∈ (([x], I g x) :: (match I g x with
        | .inl g' => (walk K I n g').map fun p => (x :: p.1, p.2)
        | .inr _ => [])), ∃ r, p.1 = x :: r := by
      intro x p h
      rcases List.mem_cons.1 h with rfl | h
      · exact ⟨_, rfl⟩
      · cases ho : I g x with
        | inr d => rw [ho] at h; cases h
        | inl g' =>
          rw [ho] at h
          obtain ⟨q, -, rfl⟩ := List.mem_map.1 h
          exact ⟨_, rfl⟩
    constructor
    · intro x hx
      refine List.pairwise_cons.2 ⟨?_, ?_⟩
      · intro q h e
        cases ho : I g x with
        | inr d => rw [ho] at h; cases h
        | inl g' =>
          rw [ho] at h
          obtain ⟨p, hp, rfl⟩ := List.mem_map.1 h
          obtain ⟨_, e⟩ := List.cons_prefix_cons.1 e
          exact hne _ _ _ hp (List.prefix_nil.1 e)
      · cases ho : I g x with
        | inr d => exact List.Pairwise.nil
        | inl g' =>
          rw [List.pairwise_map]
          exact (ih g').imp fun h e => h (List.cons_prefix_cons.1 e).2
    · refine (hK g).imp ?_
      intro x y hxy a ha b hb e
      obtain ⟨r, h1⟩ := hhead x a ha
      obtain ⟨r', h2⟩ := hhead y b hb
      rw [h1, h2] at e
      exact hxy (List.cons_prefix_cons.1 e).1.symm

theorem fsRelative_append (p rel : Path) (h : rel ≠ []) : fsRelative p (p ++ rel) = rel := by
  induction p with
  | nil =>
    cases rel with
    | nil => exact absurd rfl h
    | cons a l => rfl
  | cons a p ih => simp only [List.cons_append, fsRelative, if_true, ih]

end Z5
