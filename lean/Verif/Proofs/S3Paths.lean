import Verif.Spec.S3Container
import Verif.Proofs.S3Visit
import Verif.Proofs.S3Persist

/-!
# Paths and keys of a container on S3 (for C79)
-/

namespace Z5

/-- the names of a path, each followed by a slash -/
def Path.flat (p : Path) : Key := p.flatMap fun n => n.toList ++ ['/']

theorem flat_append (p q : Path) : (p ++ q).flat = p.flat ++ q.flat := by
  unfold Path.flat
  rw [List.flatMap_append]

theorem flat_cons (n : String) (p : Path) : Path.flat (n :: p) = n.toList ++ '/' :: p.flat := by
  unfold Path.flat
  simp

theorem text_flat : ∀ {p : Path}, p ≠ [] → p.text ++ ['/'] = p.flat
  | [], h => absurd rfl h
  | [n], _ => by simp [Path.text, Path.flat, slashed]
  | n :: m :: p, _ => by
    have := text_flat (p := m :: p) (by simp)
    rw [flat_cons, ← this]
    simp [Path.text, slashed]

theorem text_append {p q : Path} (hq : q ≠ []) : (p ++ q).text = p.flat ++ q.text := by
  have h : (p ++ q) ≠ [] := by simp [hq]
  have h1 := text_flat h
  rw [flat_append, ← text_flat hq, ← List.append_assoc] at h1
  exact List.append_cancel_right h1

theorem text_ne_nil : ∀ {p : Path}, p ≠ [] → (∀ n ∈ p, NodeName n) → p.text ≠ []
  | [], h, _ => absurd rfl h
  | [n], _, hn => by
    have := (hn n (by simp)).1
    show n.toList ≠ []
    intro e
    exact this (String.toList_inj.1 (by simpa using e))
  | n :: m :: p, _, _ => by simp [Path.text, slashed]

/-- the first name of a key -/
theorem slash_split {a b : Key} {r s : Key} (ha : '/' ∉ a) (hb : '/' ∉ b) (h : a ++ '/' :: r = b ++ '/' :: s) : a = b ∧ r = s := by
  induction a generalizing b with
  | nil =>
    cases b with
    | nil => exact ⟨rfl, (List.cons.inj h).2⟩
    | cons y b =>
      have := (List.cons.inj h).1
      exact absurd (by rw [← this]; simp) hb
  | cons x a ih =>
    cases b with
    | nil =>
      have := (List.cons.inj h).1
      exact absurd (by rw [this]; simp) ha
    | cons y b =>
      obtain ⟨h1, h2⟩ := List.cons.inj h
      obtain ⟨h3, h4⟩ := ih (b := b) (fun e => ha (List.mem_cons_of_mem _ e)) (fun e => hb (List.mem_cons_of_mem _ e)) h2
      exact ⟨by rw [h1, h3], h4⟩

/-- A path is above the place of a key exactly if it is a prefix. -/
theorem flat_prefix : ∀ {p q : Path} {r : Key}, (∀ n ∈ p, '/' ∉ n.toList) → (∀ n ∈ q, '/' ∉ n.toList) → '/' ∉ r →
    p.flat <+: q.flat ++ r → p <+: q
  | [], _, _, _, _, _, _ => List.nil_prefix
  | n :: p, [], r, _, _, hr, ⟨s, h⟩ => by
    rw [flat_cons] at h
    refine absurd ?_ hr
    have h : n.toList ++ '/' :: Path.flat p ++ s = r := h
    rw [← h]
    simp
  | n :: p, m :: q, r, hp, hq, hr, ⟨s, h⟩ => by
    rw [flat_cons, flat_cons] at h
    have h : n.toList ++ '/' :: (Path.flat p ++ s) = m.toList ++ '/' :: (Path.flat q ++ r) := by simpa using h
    obtain ⟨h1, h2⟩ := slash_split (hp n (by simp)) (hq m (by simp)) h
    have h1 : n = m := String.toList_inj.1 h1
    subst h1
    obtain ⟨t, ht⟩ := flat_prefix (fun x hx => hp x (List.mem_cons_of_mem _ hx)) (fun x hx => hq x (List.mem_cons_of_mem _ hx))
      hr ⟨s, h2⟩
    exact ⟨t, by rw [← ht]; rfl⟩

namespace S3Container

variable {C : S3Container}

/-- What is below the node at a path has this prefix. -/
def dir (C : S3Container) (p : Path) : Key := dirPrefix C.root ++ p.flat

theorem dirPrefix_key {p : Path} (hp : ∀ n ∈ p, NodeName n) : dirPrefix (C.key p) = C.dir p := by
  unfold key dir
  by_cases h : p = []
  · subst h
    simp [Path.flat]
  · rw [if_neg h]
    have hne : joinKey C.root p.text ≠ [] := by
      rw [← dirPrefix_join]
      simp [text_ne_nil h hp]
    have : dirPrefix (joinKey C.root p.text) = joinKey C.root p.text ++ ['/'] := by
      unfold dirPrefix
      rw [if_neg (by simpa using hne)]
    rw [this, ← dirPrefix_join, List.append_assoc, text_flat h]

theorem joinKey_key {p q : Path} (hp : ∀ n ∈ p, NodeName n) (hq : q ≠ []) : joinKey (C.key p) q.text = C.key (p ++ q) := by
  rw [← dirPrefix_join, dirPrefix_key hp]
  unfold key dir
  rw [if_neg (by simp [hq]), ← dirPrefix_join, text_append hq, List.append_assoc]

theorem docKey_key {p : Path} (hp : ∀ n ∈ p, NodeName n) (n : String) : docKey (C.key p) n = C.dir p ++ n.toList := by
  unfold docKey
  rw [← dirPrefix_join, dirPrefix_key hp]

theorem dir_concat (p : Path) (n : String) : C.dir (p ++ [n]) = C.dir p ++ n.toList ++ ['/'] := by
  unfold dir
  rw [flat_append]
  simp [Path.flat]

theorem dir_append (p q : Path) : C.dir (p ++ q) = C.dir p ++ q.flat := by
  unfold dir
  rw [flat_append, List.append_assoc]

theorem key_concat {p : Path} (hp : ∀ n ∈ p, NodeName n) (n : String) : C.key (p ++ [n]) = C.dir p ++ n.toList := by
  rw [← joinKey_key hp (by simp), ← dirPrefix_join, dirPrefix_key hp]
  rfl

theorem dir_prefix {p q : Path} {r : Key} (hp : ∀ n ∈ p, NodeName n) (hq : ∀ n ∈ q, NodeName n) (hr : '/' ∉ r)
    (h : C.dir p <+: C.dir q ++ r) : p <+: q := by
  unfold dir at h
  rw [List.append_assoc, List.prefix_append_right_inj] at h
  exact flat_prefix (fun n hn => (hp n hn).2.1) (fun n hn => (hq n hn).2.1) hr h

theorem dir_mono {p q : Path} (h : p <+: q) : C.dir p <+: C.dir q := by
  obtain ⟨r, rfl⟩ := h
  rw [dir_append]
  exact List.prefix_append _ _

/-- Two nodes above the same key -/
theorem dir_comparable {p q : Path} {k : Key} (hp : ∀ n ∈ p, NodeName n) (hq : ∀ n ∈ q, NodeName n) (h1 : C.dir p <+: k)
    (h2 : C.dir q <+: k) : p <+: q ∨ q <+: p := by
  rcases List.prefix_or_prefix_of_prefix h1 h2 with h | h
  · exact .inl (dir_prefix hp hq (r := []) (by simp) (by simpa using h))
  · exact .inr (dir_prefix hq hp (r := []) (by simp) (by simpa using h))

end S3Container

theorem lstrip_replicate (i : Nat) (s : Key) : pyLstrip (List.replicate i '/' ++ s) = pyLstrip s := by
  induction i with
  | zero => rfl
  | succ i ih => rw [List.replicate_succ]; exact ih

theorem text_head {p : Path} (h : p ≠ []) (hp : ∀ n ∈ p, NodeName n) : pyLstrip p.text = p.text := by
  cases p with
  | nil => exact absurd rfl h
  | cons n p =>
    have hn := hp n (by simp)
    have : ∃ c s, Path.text (n :: p) = c :: s ∧ c ≠ '/' := by
      cases e : n.toList with
      | nil => exact absurd (String.toList_inj.1 (by simpa using e)) hn.1
      | cons c s =>
        have hc : c ≠ '/' := fun e' => hn.2.1 (by rw [e, e']; simp)
        cases p with
        | nil => exact ⟨c, s, by simp [Path.text, slashed, e], hc⟩
        | cons m p => exact ⟨c, s ++ '/' :: Path.text (m :: p), by simp [Path.text, slashed, e], hc⟩
    obtain ⟨c, s, e, hc⟩ := this
    rw [e]
    simp [pyLstrip, hc]

theorem Spells.strip {n : Key} {p : Path} (h : Spells n p) : pyLstrip n = p.text := by
  obtain ⟨h1, h2, i, rfl⟩ := h
  rw [lstrip_replicate, text_head h1 h2]

theorem pySplit_name {n : Key} (h : '/' ∉ n) : pySplit n = [n] := by
  induction n with
  | nil => rfl
  | cons c n ih =>
    have hc : c ≠ '/' := fun e => h (by simp [e])
    have := ih (fun e => h (List.mem_cons_of_mem _ e))
    simp [pySplit, hc, this]

theorem pySplit_cons {n s : Key} (h : '/' ∉ n) : pySplit (n ++ '/' :: s) = n :: pySplit s := by
  induction n with
  | nil => simp [pySplit]
  | cons c n ih =>
    have hc : c ≠ '/' := fun e => h (by simp [e])
    have := ih (fun e => h (List.mem_cons_of_mem _ e))
    simp [pySplit, hc, this]

theorem pySplit_text : ∀ {p : Path}, p ≠ [] → (∀ n ∈ p, NodeName n) → pySplit p.text = p.map String.toList
  | [], h, _ => absurd rfl h
  | [n], _, hp => by
    show pySplit n.toList = _
    rw [pySplit_name (hp n (by simp)).2.1]
    rfl
  | n :: m :: p, _, hp => by
    have : Path.text (n :: m :: p) = n.toList ++ '/' :: Path.text (m :: p) := by simp [Path.text, slashed]
    rw [this, pySplit_cons (hp n (by simp)).2.1, pySplit_text (by simp) fun x hx => hp x (List.mem_cons_of_mem _ hx)]
    rfl

end Z5
