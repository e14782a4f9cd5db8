import Verif.Model.S3

/-!
# Lemmas on listings
-/

namespace Z5

/-! ### The order of keys -/

theorem keyLt_irrefl : ∀ (k : Key), keyLt k k = false
  | [] => rfl
  | a :: k => by
    unfold keyLt
    rw [keyLt_irrefl k]
    simp

theorem keyLt_trans : ∀ {a b c : Key}, keyLt a b = true → keyLt b c = true → keyLt a c = true
  | _, [], _, h, _ => by unfold keyLt at h; cases h
  | _, _ :: _, [], _, h => by unfold keyLt at h; cases h
  | [], _ :: _, _ :: _, _, _ => rfl
  | x :: a, y :: b, z :: c, h1, h2 => by
    simp only [keyLt, Bool.or_eq_true, Bool.and_eq_true, decide_eq_true_eq, beq_iff_eq] at *
    rcases h1 with h1 | ⟨rfl, h1⟩ <;> rcases h2 with h2 | ⟨rfl, h2⟩
    · exact .inl (Nat.lt_trans h1 h2)
    · exact .inl h1
    · exact .inl h2
    · exact .inr ⟨rfl, keyLt_trans h1 h2⟩

theorem keyLt_total : ∀ (a b : Key), keyLt a b = true ∨ a = b ∨ keyLt b a = true
  | [], [] => .inr (.inl rfl)
  | [], _ :: _ => .inl rfl
  | _ :: _, [] => .inr (.inr rfl)
  | x :: a, y :: b => by
    simp only [keyLt, Bool.or_eq_true, Bool.and_eq_true, decide_eq_true_eq, beq_iff_eq]
    rcases Nat.lt_trichotomy x.toNat y.toNat with h | h | h
    · exact .inl (.inl h)
    · have : x = y := Char.toNat_inj.1 h
      subst this
      rcases keyLt_total a b with h | h | h
      · exact .inl (.inr ⟨rfl, h⟩)
      · exact .inr (.inl (by rw [h]))
      · exact .inr (.inr (.inr ⟨rfl, h⟩))
    · exact .inr (.inr (.inl h))

theorem keyLt_asymm {a b : Key} (h : keyLt a b = true) : keyLt b a = false := by
  cases h' : keyLt b a with
  | false => rfl
  | true =>
    have := keyLt_trans h h'
    rw [keyLt_irrefl] at this
    cases this

theorem keyLt_ne {a b : Key} (h : keyLt a b = true) : a ≠ b := fun e => by
  rw [e, keyLt_irrefl] at h
  cases h

/-- a prefix is not greater -/
theorem prefix_le {p k : Key} (h : p <+: k) : p = k ∨ keyLt p k = true := by
  obtain ⟨s, rfl⟩ := h
  induction p with
  | nil =>
    cases s with
    | nil => exact .inl rfl
    | cons a s => exact .inr rfl
  | cons a p ih =>
    rcases ih with h | h
    · exact .inl (by rw [List.cons_append, ← h])
    · right
      simp only [List.cons_append, keyLt, h]
      simp

/-- what is less than another key and not a prefix of it stays less with whatever follows -/
theorem keyLt_append : ∀ {p q : Key} (s : Key), keyLt p q = true → ¬ p <+: q → keyLt (p ++ s) q = true
  | _, [], _, h, _ => by unfold keyLt at h; cases h
  | [], _ :: _, _, _, h => absurd List.nil_prefix h
  | x :: p, y :: q, s, h1, h2 => by
    simp only [keyLt, Bool.or_eq_true, Bool.and_eq_true, decide_eq_true_eq, beq_iff_eq, List.cons_append] at *
    rcases h1 with h1 | ⟨rfl, h1⟩
    · exact .inl h1
    · exact .inr ⟨rfl, keyLt_append s h1 fun h => h2 (List.cons_prefix_cons.2 ⟨rfl, h⟩)⟩

/-! ### Lists -/

theorem mem_distinct {α : Type} [DecidableEq α] {x : α} : ∀ {l : List α}, x ∈ distinct l ↔ x ∈ l
  | [] => Iff.rfl
  | a :: l => by
    unfold distinct
    split
    · rename_i h
      rw [mem_distinct, List.mem_cons]
      constructor
      · exact .inr
      · rintro (rfl | h')
        · exact h
        · exact h'
    · rw [List.mem_cons, List.mem_cons, mem_distinct]

theorem distinct_pairwise {α : Type} [DecidableEq α] {R : α → α → Prop} :
    ∀ {l : List α}, l.Pairwise (fun a b => a = b ∨ R a b) → (distinct l).Pairwise R
  | [], _ => List.Pairwise.nil
  | a :: l, h => by
    rw [List.pairwise_cons] at h
    unfold distinct
    split
    · exact distinct_pairwise h.2
    · rename_i hn
      rw [List.pairwise_cons]
      refine ⟨fun b hb => ?_, distinct_pairwise h.2⟩
      have hb := mem_distinct.1 hb
      rcases h.1 b hb with rfl | h
      · exact absurd hb hn
      · exact h

/-! ### Entries -/

theorem takeWhile_slash : ∀ {r : Key}, '/' ∈ r →
    ∃ x s, r = x ++ '/' :: s ∧ '/' ∉ x ∧ r.takeWhile (· ≠ '/') = x
  | [], h => by cases h
  | c :: r, h => by
    by_cases hc : c = '/'
    · exact ⟨[], r, by rw [hc]; rfl, List.not_mem_nil, by simp [hc]⟩
    · obtain ⟨x, s, h1, h2, h3⟩ := takeWhile_slash (r := r) (by
        rcases List.mem_cons.1 h with h | h
        · exact absurd h.symm hc
        · exact h)
      refine ⟨c :: x, s, by rw [h1]; rfl, ?_, ?_⟩
      · rw [List.mem_cons]
        rintro (h | h)
        · exact hc h.symm
        · exact h2 h
      · rw [List.takeWhile_cons, if_pos (by simpa using hc), h3]

/-- an object is listed by itself, or under the part of its key up to the first slash after the prefix -/
theorem entryOf_cases {pfx : Key} (delim : Bool) {k : Key} (hk : pfx <+: k) :
    (entryOf pfx delim k = .key k ∧ ∀ r, k = pfx ++ r → delim = true → '/' ∉ r) ∨
    (delim = true ∧ ∃ x s, '/' ∉ x ∧ k = pfx ++ x ++ '/' :: s ∧ entryOf pfx delim k = .pre (pfx ++ x ++ ['/'])) := by
  obtain ⟨r, rfl⟩ := hk
  unfold entryOf
  rw [List.drop_left]
  by_cases h : (delim && r.contains '/') = true
  · right
    rw [if_pos h]
    rw [Bool.and_eq_true, List.contains_iff_mem] at h
    obtain ⟨x, s, h1, h2, h3⟩ := takeWhile_slash h.2
    exact ⟨h.1, x, s, h2, by rw [h1, List.append_assoc], by rw [h3]⟩
  · left
    rw [if_neg h]
    refine ⟨rfl, fun r' e hd => ?_⟩
    have e := List.append_cancel_left e
    subst e
    rw [hd] at h
    simpa using h

theorem cut_slash : ∀ {x y s t : Key}, '/' ∉ x → '/' ∉ y → x ++ '/' :: s = y ++ '/' :: t → x = y ∧ s = t
  | [], [], _, _, _, _, h => ⟨rfl, by injection h⟩
  | [], d :: y, _, _, _, hy, h => by
    injection h with h _
    exact absurd (h ▸ List.mem_cons_self) hy
  | c :: x, [], _, _, hx, _, h => by
    injection h with h _
    exact absurd (h ▸ List.mem_cons_self) hx
  | c :: x, d :: y, _, _, hx, hy, h => by
    injection h with h1 h2
    obtain ⟨h3, h4⟩ := cut_slash (fun h => hx (List.mem_cons_of_mem _ h)) (fun h => hy (List.mem_cons_of_mem _ h)) h2
    exact ⟨by rw [h1, h3], h4⟩

theorem entryOf_pre {pfx x s : Key} (hx : '/' ∉ x) :
    entryOf pfx true (pfx ++ x ++ '/' :: s) = .pre (pfx ++ x ++ ['/']) := by
  rcases entryOf_cases true (k := pfx ++ x ++ '/' :: s) (pfx := pfx) ⟨x ++ '/' :: s, by simp⟩ with
    ⟨_, h⟩ | ⟨_, y, t, hy, h1, h2⟩
  · exact absurd (List.mem_append_right x List.mem_cons_self) (h (x ++ '/' :: s) (by simp) rfl)
  · rw [h2]
    have h1 : x ++ '/' :: s = y ++ '/' :: t := by
      rw [List.append_assoc, List.append_assoc] at h1
      exact List.append_cancel_left h1
    rw [(cut_slash hx hy h1).1]

theorem entry_text_prefix {pfx : Key} {delim : Bool} {k : Key} (hk : pfx <+: k) :
    (entryOf pfx delim k).text <+: k := by
  rcases entryOf_cases delim hk with ⟨h, _⟩ | ⟨_, x, s, _, h1, h2⟩
  · rw [h]; exact List.prefix_rfl
  · rw [h2, h1]
    exact ⟨s, by simp [ListEntry.text]⟩

/-- Beyond an entry: the entries of the keys that the listing has not passed -/
theorem beyond {pfx : Key} {delim : Bool} {k0 k : Key} (h0 : pfx <+: k0) (hk : pfx <+: k)
    (h : passed (entryOf pfx delim k0) k = false) :
    keyLt (entryOf pfx delim k0).text (entryOf pfx delim k).text = true := by
  unfold passed at h
  rw [Bool.or_eq_false_iff, Bool.not_eq_false', Bool.and_eq_false_iff] at h
  obtain ⟨hlt, hpre⟩ := h
  rcases entryOf_cases delim hk with ⟨he, _⟩ | ⟨hd, x, s, hx, h1, h2⟩
  · rw [he]
    exact hlt
  · subst hd
    rw [h2]
    show keyLt _ (pfx ++ x ++ ['/']) = true
    have hpk : pfx ++ x ++ ['/'] <+: k := ⟨s, by rw [h1]; simp⟩
    rcases keyLt_total (entryOf pfx true k0).text (pfx ++ x ++ ['/']) with h | h | h
    · exact h
    · exfalso
      rcases entryOf_cases true h0 with ⟨h3, h4⟩ | ⟨_, y, t, hy, h3, h4⟩
      · rw [h3] at h
        exact h4 (x ++ ['/']) (by simpa [ListEntry.text] using h) rfl (by simp)
      · rw [h4] at hpre h
        rcases hpre with hpre | hpre
        · cases hpre
        · have : (pfx ++ y ++ ['/']) = pfx ++ x ++ ['/'] := h
          have hpre : (pfx ++ y ++ ['/']).isPrefixOf k = false := hpre
          rw [this, Bool.eq_false_iff] at hpre
          exact hpre (List.isPrefixOf_iff_prefix.2 hpk)
    · exfalso
      by_cases hp : pfx ++ x ++ ['/'] <+: (entryOf pfx true k0).text
      · rcases entryOf_cases true h0 with ⟨h3, h4⟩ | ⟨_, y, t, hy, h3, h4⟩
        · rw [h3] at hp
          obtain ⟨t, ht⟩ := hp
          exact h4 (x ++ ['/'] ++ t) (by rw [← show _ = k0 from ht]; simp) rfl (by simp)
        · rw [h4] at hp h
          have hp' : pfx ++ x ++ ['/'] <+: k0 := hp.trans ⟨t, by rw [h3]; simp [ListEntry.text]⟩
          obtain ⟨u, hu⟩ := hp'
          have e1 := entryOf_pre (pfx := pfx) (s := u) hx
          rw [show pfx ++ x ++ '/' :: u = k0 by rw [← hu]; simp, h4] at e1
          injection e1 with e1
          have h : keyLt (pfx ++ x ++ ['/']) (pfx ++ y ++ ['/']) = true := h
          exact keyLt_ne h e1.symm
      · have h3 := keyLt_append s h hp
        rw [show pfx ++ x ++ ['/'] ++ s = k by rw [h1]; simp] at h3
        rw [keyLt_asymm h3] at hlt
        cases hlt

/-- An entry is not beyond another one if the listing has passed its keys. -/
theorem not_passed {pfx : Key} {delim : Bool} {k0 k : Key} (h0 : pfx <+: k0) (hk : pfx <+: k)
    (h : keyLt (entryOf pfx delim k0).text (entryOf pfx delim k).text = true) :
    passed (entryOf pfx delim k0) k = false := by
  unfold passed
  rw [Bool.or_eq_false_iff, Bool.not_eq_false', Bool.and_eq_false_iff]
  constructor
  · rcases prefix_le (entry_text_prefix (delim := delim) hk) with e | e
    · rwa [e] at h
    · exact keyLt_trans h e
  · rcases entryOf_cases delim h0 with ⟨h3, _⟩ | ⟨hd, y, t, hy, h3, h4⟩
    · rw [h3]
      exact .inl rfl
    · right
      rw [Bool.eq_false_iff]
      intro hp
      subst hd
      rw [h4] at hp h
      obtain ⟨u, hu⟩ := List.isPrefixOf_iff_prefix.1 hp
      have e1 := entryOf_pre (pfx := pfx) (s := u) hy
      rw [show pfx ++ y ++ '/' :: u = k by rw [← hu]; simp [ListEntry.text]] at e1
      rw [e1, keyLt_irrefl] at h
      cases h

/-! ### Pages -/

theorem mem_remaining {pfx : Key} {delim : Bool} {token : Option ListEntry} {b : Bucket} {e : ListEntry} :
    e ∈ remaining pfx delim token b ↔
      ∃ k ∈ b.keys, pfx <+: k ∧ (∀ t ∈ token, passed t k = false) ∧ entryOf pfx delim k = e := by
  unfold remaining
  rw [mem_distinct, List.mem_map]
  constructor
  · rintro ⟨k, hk, rfl⟩
    rw [List.mem_filter, Bool.and_eq_true, List.isPrefixOf_iff_prefix] at hk
    refine ⟨k, hk.1, hk.2.1, fun t ht => ?_, rfl⟩
    have h := hk.2.2
    cases ht
    simpa using h
  · rintro ⟨k, h1, h2, h3, rfl⟩
    refine ⟨k, ?_, rfl⟩
    rw [List.mem_filter, Bool.and_eq_true, List.isPrefixOf_iff_prefix]
    refine ⟨h1, h2, ?_⟩
    cases token with
    | none => rfl
    | some t =>
      show (!passed t k) = true
      rw [h3 t rfl]
      rfl

theorem remaining_sorted (pfx : Key) (delim : Bool) (token : Option ListEntry) {b : Bucket} (hb : b.WF) :
    (remaining pfx delim token b).Pairwise fun e e' => keyLt e.text e'.text = true := by
  unfold remaining
  refine distinct_pairwise ?_
  rw [List.pairwise_map]
  have h1 : b.keys.Pairwise fun k l => keyLt k l = true := by
    unfold Bucket.keys
    rw [List.pairwise_map]
    exact hb
  refine (List.Pairwise.and_mem.1 (h1.filter _)).imp ?_
  intro k l hkl
  obtain ⟨hk, hl, hlt⟩ := hkl
  rw [List.mem_filter, Bool.and_eq_true, List.isPrefixOf_iff_prefix] at hk hl
  by_cases he : entryOf pfx delim k = entryOf pfx delim l
  · exact .inl he
  · right
    refine beyond hk.2.1 hl.2.1 ?_
    unfold passed
    rw [Bool.or_eq_false_iff, Bool.not_eq_false', Bool.and_eq_false_iff]
    constructor
    · rcases prefix_le (entry_text_prefix (delim := delim) hk.2.1) with e | e
      · rwa [e]
      · exact keyLt_trans e hlt
    · rcases entryOf_cases delim hk.2.1 with ⟨h3, _⟩ | ⟨hd, y, t, hy, h3, h4⟩
      · rw [h3]
        exact .inl rfl
      · right
        rw [Bool.eq_false_iff]
        intro hp
        subst hd
        rw [h4] at hp he
        obtain ⟨u, hu⟩ := List.isPrefixOf_iff_prefix.1 hp
        have e1 := entryOf_pre (pfx := pfx) (s := u) hy
        rw [show pfx ++ y ++ '/' :: u = l by rw [← hu]; simp [ListEntry.text]] at e1
        exact he e1.symm

/-- What the bucket is at the requests: the state left by the previous one, changed by others. -/
def BucketsOk (es : List Event) : Prop := ∀ e ∈ es, ∀ b : Bucket, b.WF → (e.change b).WF

/-- The buckets that the listing sees. -/
def seenBy (pfx : Key) (delim : Bool) : List Event → Bucket → Option ListEntry → List Bucket
  | [], _, _ => []
  | e :: es, b, token =>
    e.change b ::
      match e.serve .list (listReq pfx delim none token) b with
      | (.error _, _) => []
      | (.ok page, b) => if page.truncated then seenBy pfx delim es b page.next else []

theorem listLoop_spec (pfx : Key) (delim : Bool) :
    ∀ (es : List Event) (b : Bucket) (token : Option ListEntry) (out : List ListEntry),
      b.WF → BucketsOk es → (∀ t ∈ token, ∃ k, pfx <+: k ∧ entryOf pfx delim k = t) →
      ∀ {r w}, listLoop pfx delim es b token out = (some (.ok (r, true)), w) →
      ∃ E, r = out ++ E ∧ E.Pairwise (fun e e' => keyLt e.text e'.text = true) ∧
        (∀ e ∈ E, ∀ t ∈ token, keyLt t.text e.text = true) ∧
        (∀ e ∈ E, ∃ b' ∈ seenBy pfx delim es b token, ∃ k ∈ b'.keys, pfx <+: k ∧ entryOf pfx delim k = e) ∧
        (∀ k, pfx <+: k → (∀ t ∈ token, passed t k = false) →
          (∀ b' ∈ seenBy pfx delim es b token, k ∈ b'.keys) → entryOf pfx delim k ∈ E) := by
  intro es
  induction es with
  | nil =>
    intro b token out _ _ _ r w h
    cases h
  | cons e es ih =>
    intro b token out hb hes htok r w h
    have hb' := hes e List.mem_cons_self b hb
    have hserve : e.error .list = none := by
      unfold listLoop Event.serve at h
      cases he : e.error .list with
      | none => rfl
      | some p =>
        obtain ⟨err, ap⟩ := p
        rw [he] at h
        cases h
    have hserved : e.serve .list (listReq pfx delim none token) b
        = (.ok ⟨(remaining pfx delim token (e.change b)).take e.size,
          decide (e.size < (remaining pfx delim token (e.change b)).length),
          ((remaining pfx delim token (e.change b)).take e.size).getLast?.or token⟩, e.change b) := by
      unfold Event.serve
      rw [hserve]
      rfl
    unfold listLoop at h
    unfold seenBy
    rw [hserved] at h ⊢
    generalize hR : remaining pfx delim token (e.change b) = R at h ⊢
    have hsort : R.Pairwise fun e e' => keyLt e.text e'.text = true :=
      hR ▸ remaining_sorted pfx delim token hb'
    have hbey : ∀ x ∈ R, ∀ t ∈ token, keyLt t.text x.text = true := by
      intro x hx t ht
      rw [← hR] at hx
      obtain ⟨k, _, h2, h3, rfl⟩ := mem_remaining.1 hx
      obtain ⟨k0, h4, rfl⟩ := htok t ht
      exact beyond h4 h2 (h3 _ ht)
    have hsound : ∀ x ∈ R, ∃ k ∈ (e.change b).keys, pfx <+: k ∧ entryOf pfx delim k = x := by
      intro x hx
      rw [← hR] at hx
      obtain ⟨k, h1, h2, _, h3⟩ := mem_remaining.1 hx
      exact ⟨k, h1, h2, h3⟩
    dsimp only at h ⊢
    by_cases ht : decide (e.size < R.length) = true
    · rw [if_pos ht] at h ⊢
      have htok' : ∀ t ∈ (R.take e.size).getLast?.or token, ∃ k, pfx <+: k ∧ entryOf pfx delim k = t := by
        intro t ht
        cases hl : (R.take e.size).getLast? with
        | none =>
          rw [hl] at ht
          exact htok t ht
        | some l =>
          rw [hl] at ht
          have ht := Option.some.inj ht
          subst ht
          obtain ⟨k, _, h2, h3⟩ := hsound l (List.mem_of_mem_take (List.mem_of_getLast? hl))
          exact ⟨k, h2, h3⟩
      obtain ⟨E, h1, h2, h3, h4, h5⟩ := ih (e.change b) _ _ hb' (fun e' he' => hes e' (List.mem_cons_of_mem _ he'))
        htok' h
      -- the entries of the page are not beyond the token that follows
      have hpage : ∀ x ∈ R.take e.size, ∀ y ∈ E, keyLt x.text y.text = true := by
        intro x hx y hy
        cases hl : (R.take e.size).getLast? with
        | none =>
          rw [List.getLast?_eq_none_iff] at hl
          rw [hl] at hx
          cases hx
        | some l =>
          have hly := h3 y hy l (by rw [hl]; rfl)
          obtain ⟨m, hm⟩ := List.getLast?_eq_some_iff.1 hl
          have hs : (m ++ [l]).Pairwise fun e e' => keyLt e.text e'.text = true := hm ▸ (hsort.take)
          rw [List.pairwise_append] at hs
          rw [hm, List.mem_append, List.mem_singleton] at hx
          rcases hx with hx | rfl
          · exact keyLt_trans (hs.2.2 x hx l List.mem_cons_self) hly
          · exact hly
      refine ⟨R.take e.size ++ E, by rw [h1, List.append_assoc], ?_, ?_, ?_, ?_⟩
      · rw [List.pairwise_append]
        exact ⟨hsort.take, h2, hpage⟩
      · intro x hx t ht
        rw [List.mem_append] at hx
        rcases hx with hx | hx
        · exact hbey x (List.mem_of_mem_take hx) t ht
        · cases hl : (R.take e.size).getLast? with
          | none => exact h3 x hx t (by rw [hl]; exact ht)
          | some l =>
            exact keyLt_trans (hbey l (List.mem_of_mem_take (List.mem_of_getLast? hl)) t ht)
              (h3 x hx l (by rw [hl]; rfl))
      · intro x hx
        rw [List.mem_append] at hx
        rcases hx with hx | hx
        · exact ⟨_, List.mem_cons_self, hsound x (List.mem_of_mem_take hx)⟩
        · obtain ⟨b', hb', h⟩ := h4 x hx
          exact ⟨b', List.mem_cons_of_mem _ hb', h⟩
      · intro k hk hp hall
        rw [List.mem_append]
        have hkR : entryOf pfx delim k ∈ R := by
          rw [← hR]
          exact mem_remaining.2 ⟨k, hall _ List.mem_cons_self, hk, hp, rfl⟩
        rw [← List.take_append_drop e.size R, List.mem_append] at hkR
        rcases hkR with hkR | hkR
        · exact .inl hkR
        · right
          refine h5 k hk ?_ fun b' hb' => hall b' (List.mem_cons_of_mem _ hb')
          intro t ht
          cases hl : (R.take e.size).getLast? with
          | none =>
            rw [hl] at ht
            exact hp t ht
          | some l =>
            rw [hl] at ht
            have ht := Option.some.inj ht
            subst ht
            have hlm := List.mem_of_getLast? hl
            obtain ⟨k0, _, h6, h7⟩ := hsound l (List.mem_of_mem_take hlm)
            rw [← h7]
            refine not_passed h6 hk ?_
            rw [h7]
            have hs : (R.take e.size ++ R.drop e.size).Pairwise fun e e' => keyLt e.text e'.text = true := by
              rw [List.take_append_drop]; exact hsort
            exact (List.pairwise_append.1 hs).2.2 l hlm _ hkR
    · rw [if_neg ht] at h ⊢
      injection h with h _
      injection h with h
      injection h with h
      injection h with h _
      have htake : R.take e.size = R := List.take_of_length_le (by simpa using ht)
      rw [htake] at h
      refine ⟨R, h.symm, hsort, hbey, fun x hx => ⟨_, List.mem_cons_self, hsound x hx⟩, ?_⟩
      intro k hk hp hall
      rw [← hR]
      exact mem_remaining.2 ⟨k, hall _ List.mem_cons_self, hk, hp, rfl⟩

end Z5
