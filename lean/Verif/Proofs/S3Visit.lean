import Verif.Props.S3
import Verif.Proofs.S3Nodes
import Verif.Proofs.Visit

/-!
# Lemmas for `visititems` on S3
-/

namespace Z5

open Spec

namespace S3M.Answers

variable {α β : Type} {b : Bucket}

theorem of_does {x : S3M α} {n : Nat} {r : Res α} (h : x.Does n b r b) : x.Answers b r := by
  refine ⟨n, fun es hes => ?_⟩
  rcases h es fun e he => (hes e he).1 with h | ⟨es', b'', h1, h2, h3, h4⟩ | h
  · exact .inl h
  · refine .inr (.inl ⟨es', h1, ?_, h4⟩)
    rcases h3 with rfl | rfl <;> exact h2
  · exact .inr (.inr h)

theorem pure (a : α) : (Pure.pure a : S3M α).Answers b (.ok a) := of_does (.pure a b)

theorem bind {x : S3M α} {f : α → S3M β} {a : α} {r : Res β} (hx : x.Answers b (.ok a)) (hf : (f a).Answers b r) :
    (x >>= f).Answers b r := by
  obtain ⟨n, hx⟩ := hx
  obtain ⟨m, hf⟩ := hf
  refine ⟨n + m, fun es hes => ?_⟩
  show (∃ es', _ ∧ _ ∧ (match x ⟨es, b⟩ with
      | (some (.ok a), w) => f a w
      | (some (.throw e), w) => (some (.throw e), w)
      | (some .ub, w) => (some .ub, w)
      | (none, w) => (none, w)) = _) ∨ (∃ es', _ ∧ (match x ⟨es, b⟩ with
      | (some (.ok a), w) => f a w
      | (some (.throw e), w) => (some (.throw e), w)
      | (some .ub, w) => (some .ub, w)
      | (none, w) => (none, w)) = _ ∧ _) ∨ (_ ∧ (match x ⟨es, b⟩ with
      | (some (.ok a), w) => f a w
      | (some (.throw e), w) => (some (.throw e), w)
      | (some .ub, w) => (some .ub, w)
      | (none, w) => (none, w)) = _)
  rcases hx es hes with ⟨es', h1, h2, h3⟩ | ⟨es', h1, h2, h3⟩ | ⟨h1, h2⟩
  · rw [h3]
    have hes' : ∀ e ∈ es', e.Steady := fun e he => hes e (h1.subset he)
    rcases hf es' hes' with ⟨es'', g1, g2, g3⟩ | ⟨es'', g1, g2, e, he, g3⟩ | ⟨g1, g2⟩
    · exact .inl ⟨es'', g1.trans h1, by omega, g3⟩
    · exact .inr (.inl ⟨es'', g1.trans h1, g2, e, h1.subset he, g3⟩)
    · exact .inr (.inr ⟨by omega, g2⟩)
  · rw [h2]
    exact .inr (.inl ⟨es', h1, rfl, h3⟩)
  · rw [h2]
    exact .inr (.inr ⟨by omega, rfl⟩)

theorem bind_throw {x : S3M α} {f : α → S3M β} {e : Err} (hx : x.Answers b (.throw e)) :
    (x >>= f).Answers b (.throw e) := by
  obtain ⟨n, hx⟩ := hx
  refine ⟨n, fun es hes => ?_⟩
  rcases hx es hes with ⟨es', h1, h2, h3⟩ | ⟨es', h1, h2, h3⟩ | ⟨h1, h2⟩
  · exact .inl ⟨es', h1, h2, by rw [S3M.bind_eq, h3]⟩
  · exact .inr (.inl ⟨es', h1, by rw [S3M.bind_eq, h2], h3⟩)
  · exact .inr (.inr ⟨h1, by rw [S3M.bind_eq, h2]⟩)

theorem calm (n : Nat) : ∀ e ∈ List.replicate n ({} : Event), e.Steady := fun e he => by
  rw [List.eq_of_mem_replicate he]
  exact ⟨⟨rfl, rfl, (fun d h => by cases h), by decide⟩, rfl⟩

/-- the answer, if nothing fails -/
theorem run {x : S3M α} {r : Res α} (h : x.Answers b r) :
    ∃ n, ∀ m, n ≤ m → (x ⟨List.replicate m {}, b⟩).1 = some r := by
  obtain ⟨n, h⟩ := h
  refine ⟨n, fun m hm => ?_⟩
  rcases h _ (calm m) with ⟨es', _, _, h⟩ | ⟨es', _, _, e, he, k, hk⟩ | ⟨h, _⟩
  · rw [h]
  · rw [List.eq_of_mem_replicate he] at hk
    exact absurd rfl hk
  · rw [List.length_replicate] at h
    omega

theorem unique {x : S3M α} {r r' : Res α} (h : x.Answers b r) (h' : x.Answers b r') : r = r' := by
  obtain ⟨n, h⟩ := h.run
  obtain ⟨n', h'⟩ := h'.run
  have h1 := h (max n n') (Nat.le_max_left _ _)
  rw [h' (max n n') (Nat.le_max_right _ _)] at h1
  injection h1 with h1
  exact h1.symm

end S3M.Answers

/-! ### Listings -/

theorem sorted_unique {R : Key → Key → Bool} (hirr : ∀ k, R k k = false) (hasym : ∀ {a b}, R a b = true → R b a = false) :
    ∀ {l m : List ListEntry}, l.Pairwise (fun e e' => R e.text e'.text = true) →
      m.Pairwise (fun e e' => R e.text e'.text = true) → (∀ e, e ∈ l ↔ e ∈ m) → l = m
  | [], [], _, _, _ => rfl
  | [], e :: m, _, _, h => absurd ((h e).2 List.mem_cons_self) List.not_mem_nil
  | e :: l, [], _, _, h => absurd ((h e).1 List.mem_cons_self) List.not_mem_nil
  | e :: l, e' :: m, hl, hm, h => by
    obtain ⟨hl1, hl2⟩ := List.pairwise_cons.1 hl
    obtain ⟨hm1, hm2⟩ := List.pairwise_cons.1 hm
    have he : e = e' := by
      rcases List.mem_cons.1 ((h e).1 List.mem_cons_self) with e1 | h1
      · exact e1
      · rcases List.mem_cons.1 ((h e').2 List.mem_cons_self) with e2 | h2
        · exact e2.symm
        · have := hasym (hl1 _ h2)
          rw [hm1 _ h1] at this
          cases this
    subst he
    congr 1
    refine sorted_unique hirr hasym hl2 hm2 fun x => ?_
    have := h x
    rw [List.mem_cons, List.mem_cons] at this
    constructor
    · intro hx
      rcases this.1 (.inr hx) with rfl | h1
      · have := hl1 _ hx
        rw [hirr] at this
        cases this
      · exact h1
    · intro hx
      rcases this.2 (.inr hx) with rfl | h1
      · have := hm1 _ hx
        rw [hirr] at this
        cases this
      · exact h1

/-- after an entry, the rest -/
theorem remaining_after {pfx : Key} {delim : Bool} {b : Bucket} (hb : b.WF) {A B : List ListEntry} {t : ListEntry}
    (h : remaining pfx delim none b = A ++ t :: B) : remaining pfx delim (some t) b = B := by
  have hs := remaining_sorted pfx delim none hb
  rw [h] at hs
  obtain ⟨_, h2, h3⟩ := List.pairwise_append.1 hs
  obtain ⟨h4, h5⟩ := List.pairwise_cons.1 h2
  refine sorted_unique keyLt_irrefl keyLt_asymm (remaining_sorted pfx delim (some t) hb) h5 fun e => ?_
  have ht : t ∈ remaining pfx delim none b := by
    rw [h]
    exact List.mem_append_right _ List.mem_cons_self
  obtain ⟨k0, _, hp0, _, e0⟩ := mem_remaining.1 ht
  have hmem : ∀ {e}, e ∈ remaining pfx delim none b ↔ e ∈ A ++ t :: B := by
    intro e
    rw [h]
  constructor
  · intro he
    obtain ⟨k, hk, hp, hpass, rfl⟩ := mem_remaining.1 he
    have hlt : keyLt t.text (entryOf pfx delim k).text = true := by
      rw [← e0]
      exact beyond hp0 hp (by rw [e0]; exact hpass t rfl)
    have := hmem.1 (mem_remaining.2 ⟨k, hk, hp, (fun t ht => by cases ht), rfl⟩)
    rcases List.mem_append.1 this with h6 | h6
    · have := keyLt_asymm (h3 _ h6 t List.mem_cons_self)
      rw [hlt] at this
      cases this
    · rcases List.mem_cons.1 h6 with h6 | h6
      · rw [h6, keyLt_irrefl] at hlt
        cases hlt
      · exact h6
  · intro he
    obtain ⟨k, hk, hp, _, rfl⟩ := mem_remaining.1 (hmem.2 (List.mem_append_right A (List.mem_cons_of_mem t he)))
    refine mem_remaining.2 ⟨k, hk, hp, fun t' ht' => ?_, rfl⟩
    cases ht'
    rw [← e0]
    exact not_passed hp0 hp (by rw [e0]; exact h4 _ he)

theorem listLoop_steady {pfx : Key} {delim : Bool} {b : Bucket} (hb : b.WF) : ∀ (es : List Event) (A B : List ListEntry),
    (∀ e ∈ es, e.Steady) → remaining pfx delim none b = A ++ B →
    (∃ es', es' <:+ es ∧ es.length ≤ B.length + 1 + es'.length ∧
      listLoop pfx delim es b A.getLast? A = (some (.ok (A ++ B, true)), ⟨es', b⟩)) ∨
    (es.length < B.length + 1 ∧ listLoop pfx delim es b A.getLast? A = (none, ⟨[], b⟩))
  | [], A, B, _, _ => .inr ⟨by simp, rfl⟩
  | e :: es, A, B, hes, hR => by
    have hrem : remaining pfx delim A.getLast? b = B := by
      rcases List.eq_nil_or_concat A with rfl | ⟨A', t, rfl⟩
      · exact hR
      · rw [List.concat_eq_append] at hR ⊢
        rw [List.getLast?_concat]
        refine remaining_after hb (A := A') ?_
        rw [hR, List.append_assoc]
        rfl
    have he := hes e List.mem_cons_self
    have hserve : e.serve .list (listReq pfx delim none A.getLast?) b
        = (.ok ⟨B.take e.size, decide (e.size < B.length), (B.take e.size).getLast?.or A.getLast?⟩, b) := by
      unfold Event.serve
      rw [he.2, he.1.1]
      show listReq pfx delim none A.getLast? e b = _
      unfold listReq
      rw [hrem]
    have hpos := he.1.2.2.2
    unfold listLoop
    rw [hserve]
    dsimp only
    by_cases hlt : e.size < B.length
    · rw [decide_eq_true hlt, if_pos rfl]
      have hnext : (B.take e.size).getLast?.or A.getLast? = (A ++ B.take e.size).getLast? := by
        rw [List.getLast?_append]
      rw [hnext]
      have := listLoop_steady hb es (A ++ B.take e.size) (B.drop e.size)
        (fun e' h => hes e' (List.mem_cons_of_mem _ h)) (by rw [hR, List.append_assoc, List.take_append_drop])
      rw [List.append_assoc, List.take_append_drop, List.length_drop] at this
      rcases this with ⟨es', h1, h2, h3⟩ | ⟨h1, h2⟩
      · refine .inl ⟨es', h1.trans (List.suffix_cons _ _), ?_, h3⟩
        rw [List.length_cons]
        omega
      · refine .inr ⟨?_, h2⟩
        rw [List.length_cons]
        omega
    · rw [decide_eq_false hlt, if_neg (by decide), List.take_of_length_le (by omega)]
      exact .inl ⟨es, List.suffix_cons _ _, by rw [List.length_cons]; omega, rfl⟩

theorem listPages_answers {pfx : Key} {delim : Bool} {b : Bucket} (hb : b.WF) :
    (listPages pfx delim).Answers b (.ok (remaining pfx delim none b, true)) := by
  refine ⟨(remaining pfx delim none b).length + 1, fun es hes => ?_⟩
  rcases listLoop_steady (pfx := pfx) (delim := delim) hb es [] _ hes rfl with h | h
  · exact .inl h
  · exact .inr (.inr h)

/-- The children of a group -/
theorem keys_answers {h : S3Handle} {b : Bucket} (hb : b.WF) :
    ∃ names, h.keys.Answers b (.ok names) ∧ names.Nodup ∧ ∀ n, n ∈ names ↔ b.Child h.name n := by
  have h1 : h.keys.Answers b (prefixNames ((remaining (dirPrefix h.name) true none b).filterMap (·.pre?))) := by
    unfold S3Handle.keys
    exact (listPages_answers hb).bind (.of_does (.lift _ _))
  obtain ⟨n, hn⟩ := h1.run
  have hw : World.Ok ⟨List.replicate n {}, b⟩ := ⟨hb, fun e he b hb => by
    rw [List.eq_of_mem_replicate he]; exact hb⟩
  obtain ⟨names, h2, h3, h4, h5⟩ := c50_keys (h := h) (w := ⟨List.replicate n {}, b⟩) hw
    (fun e he => by rw [List.eq_of_mem_replicate he]) (Prod.ext (hn n (Nat.le_refl _)) rfl)
  rw [h2] at h1
  refine ⟨names, h1, h3, fun x => ⟨fun hx => ?_, fun ⟨hx, s, hs⟩ => ?_⟩⟩
  · obtain ⟨g1, g2⟩ := h5 x hx
    refine ⟨g1, Classical.byContradiction fun hc => g2 ⟨fun k hk ⟨s, e⟩ => hc ⟨s, e ▸ hk⟩, ?_⟩⟩
    intro e he b' hb'
    rw [List.eq_of_mem_replicate he]
    exact hb'
  · refine h4 x s hx ⟨hs, fun e he b' hb' => ?_⟩
    rw [List.eq_of_mem_replicate he]
    exact hb'

/-! ### Names -/

theorem dirPrefix_join (name n : Key) : dirPrefix name ++ n = joinKey name n := by
  unfold dirPrefix joinKey
  split
  · rfl
  · simp

theorem s3RelativePath_join (name r : Key) : s3RelativePath name (joinKey name r) = r := by
  unfold s3RelativePath joinKey
  cases name with
  | nil => rfl
  | cons c name =>
    simp

theorem joinKey_join {name x y : Key} (hx : x ≠ []) : joinKey (joinKey name x) y = joinKey name (x ++ '/' :: y) := by
  unfold joinKey
  cases name with
  | nil =>
    cases x with
    | nil => exact absurd rfl hx
    | cons c x => simp
  | cons c name => simp

theorem slashed_cons {n : Key} {rel : List Key} (h : rel ≠ []) : slashed (n :: rel) = n ++ '/' :: slashed rel := by
  cases rel with
  | nil => exact absurd rfl h
  | cons m rel => rfl

end Z5
