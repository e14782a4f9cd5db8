import Verif.Proofs.Race

/-!
# `createGroup` and `createDataset` in a race (for C96)
-/

namespace Z5

namespace FsProg

theorem bind_ret : ∀ t : FsProg Unit, t.bind (fun _ => .ret (.ok ())) = t
  | .ret (.ok _) => rfl
  | .ret (.throw _) => rfl
  | .ret .ub => rfl
  | .act f c => by
    show FsProg.act f (fun σ => (c σ).bind _) = _
    exact congrArg _ (funext fun σ => bind_ret (c σ))

theorem bind_assoc {α β γ : Type} (K : α → FsProg β) (K' : β → FsProg γ) : ∀ t : FsProg α, (t.bind K).bind K' = t.bind fun a => (K a).bind K'
  | .ret (.ok _) => rfl
  | .ret (.throw _) => rfl
  | .ret .ub => rfl
  | .act f c => by
    show FsProg.act f (fun σ => ((c σ).bind K).bind K') = FsProg.act f fun σ => (c σ).bind _
    exact congrArg _ (funext fun σ => bind_assoc K K' (c σ))

theorem mkdirs_bind {α β : Type} (c : FsProg α) (K : α → FsProg β) : ∀ ps, (mkdirs ps c).bind K = mkdirs ps (c.bind K)
  | [] => rfl
  | p :: ps => by
    show FsProg.act _ (fun _ => (mkdirs ps c).bind K) = FsProg.act _ fun _ => mkdirs ps (c.bind K)
    rw [mkdirs_bind c K ps]

theorem contents_bind {α β : Type} (p : Path) (c : FsProg α) (K : α → FsProg β) :
    ∀ es, (Stepwise.contents p es c).bind K = Stepwise.contents p es (c.bind K)
  | [] => rfl
  | e :: es => by
    show FsProg.act _ (fun _ => (Stepwise.contents p es c).bind K) = FsProg.act _ fun _ => Stepwise.contents p es (c.bind K)
    rw [contents_bind p c K es]

end FsProg

namespace Race

variable {α β : Type} {X : Race α} {D : Disk}

theorem late_contents {r : Res α} (hr : X.Done r) : ∀ bs : List Bytes,
    X.Late (Stepwise.contents X.F (bs.map .file ++ [.doc X.J]) (.ret r))
  | [] => .inr ⟨fun _ => rfl, fun _ => ⟨r, rfl, hr⟩⟩
  | b :: bs => .inl ⟨b, fun _ => rfl, fun _ => late_contents hr bs⟩

theorem mid_writeDoc {x : String} (hX : X.F = X.P ++ [x]) (hw : X.w = true) {K : Unit → FsProg α} {r : Res α} (hK : K () = .ret r) (hr : X.Done r)
    (b : Bool) : X.Mid ((Stepwise.writeDoc D X.F X.J).bind K) b true := by
  show X.Mid (FsProg.act _ fun σ => FsProg.bind _ K) b true
  intro σ hS hb hd
  have hp := hd rfl
  have hdl : X.F.dropLast = X.P := by rw [hX, List.dropLast_concat]
  have hc : (isDirectory (σ X.F.dropLast) && !isDirectory (σ X.F)) = true := by
    rw [hdl, hp]
    rcases hS.doc with e | ⟨v, e⟩ | e <;> rw [e] <;> rfl
  refine .inr ⟨hw, hp, ?_, ?_⟩
  · show (if _ then _ else _) = _
    rw [if_pos hc]
  · show X.Late (FsProg.bind (if _ then _ else _) K)
    rw [if_pos hc, FsProg.contents_bind]
    show X.Late (Stepwise.contents X.F _ (K ()))
    rw [hK]
    exact late_contents hr _

/-- the directories above are there -/
theorem mid_mkdirs (hd : ∀ q, q <+: X.P → q ≠ X.P → X.σ₀ q = some .dir) (h0 : X.P ≠ []) {c : FsProg α}
    (hc : X.Mid c false true ∨ (X.w = false ∧ ∃ r, c = .ret r ∧ X.Done r)) :
    ∀ qs : List Path, (∀ q ∈ qs, q <+: X.P ∧ q ≠ X.P) → X.Mid (mkdirs (qs ++ [X.P]) c) false false
  | [], _ => by
    intro σ hS _ _
    left
    have hdl : σ (List.dropLast X.P) = some .dir := by
      have h1 : List.dropLast X.P <+: X.P := List.dropLast_prefix _
      have h2 : List.dropLast X.P ≠ X.P := fun e => by
        have := congrArg List.length e
        rw [List.length_dropLast] at this
        have := List.length_pos_iff.2 h0
        omega
      rw [hS.other _ fun h => h2 (h1.eq_of_length_le h.length_le), hd _ h1 h2]
    have hf : ((σ X.P = some .dir ∧ σ.mkdir X.P = σ) ∨ (σ X.P = none ∧ σ.mkdir X.P = σ.set X.P (some .dir))) := by
      rcases hS.dir with e | e
      · right
        refine ⟨e, ?_⟩
        unfold Fs.mkdir
        rw [e, hdl]
        rfl
      · left
        refine ⟨e, ?_⟩
        unfold Fs.mkdir
        rw [e]
        rfl
    have hp : σ.mkdir X.P X.P = some .dir := by
      rcases hf with ⟨e1, e2⟩ | ⟨_, e2⟩
      · rw [e2, e1]
      · rw [e2]; exact if_pos rfl
    refine ⟨hf.imp (fun h => h.2) id, ?_⟩
    rcases hc with hc | ⟨hw, r, e, hr⟩
    · exact .inl ⟨false, true, (fun e => by cases e), fun _ => hp, hc⟩
    · exact .inr (.inr ⟨hw, hp, r, e, hr⟩)
  | q :: qs, hq => by
    intro σ hS _ _
    left
    obtain ⟨h1, h2⟩ := hq q (List.mem_cons_self ..)
    have hdq : σ q = some .dir := by
      rw [hS.other _ fun h => h2 (h1.eq_of_length_le h.length_le), hd _ h1 h2]
    have hm : σ.mkdir q = σ := by
      unfold Fs.mkdir
      rw [hdq]
      rfl
    refine ⟨.inl hm, .inl ⟨false, false, (fun e => by cases e), (fun e => by cases e), ?_⟩⟩
    exact mid_mkdirs hd h0 hc qs fun q' h => hq q' (List.mem_cons_of_mem _ h)

/-- the directory, if nothing was there -/
theorem mid_createDirectories (hd : ∀ q, q <+: X.P → q ≠ X.P → X.σ₀ q = some .dir) (h0 : X.P ≠ []) {K : Unit → FsProg α}
    (hc : X.Mid (K ()) false true ∨ (X.w = false ∧ ∃ r, K () = .ret r ∧ X.Done r)) :
    X.Mid ((Stepwise.createDirectories X.P).bind K) false false := by
  show X.Mid (FsProg.act id fun σ => FsProg.bind _ K) false false
  intro σ hS _ _
  have hn : ¬ ((List.range (X.P.length + 1)).any fun n => isOther (σ (X.P.take n))) = true := by
    rw [List.any_eq_true]
    rintro ⟨n, _, h⟩
    by_cases e : X.P.take n = X.P
    · rw [e] at h
      rcases hS.dir with e | e <;> rw [e] at h <;> cases h
    · have h1 : X.P.take n <+: X.P := List.take_prefix ..
      rw [hS.other _ (fun h => e (h1.eq_of_length_le h.length_le)), hd _ h1 e] at h
      cases h
  refine .inl ⟨.inl rfl, .inl ⟨false, false, (fun e => by cases e), (fun e => by cases e), ?_⟩⟩
  show X.Mid (FsProg.bind (if _ then _ else _) K) false false
  rw [if_neg hn, FsProg.mkdirs_bind]
  have hp : pathsTo X.P = (List.range X.P.length).map (List.take · X.P) ++ [X.P] := by
    unfold pathsTo
    rw [List.range_succ, List.map_append]
    simp
  rw [hp]
  refine mid_mkdirs hd h0 hc _ fun q hq => ?_
  obtain ⟨n, hn, rfl⟩ := List.mem_map.1 hq
  refine ⟨List.take_prefix .., fun e => ?_⟩
  have := congrArg List.length e
  rw [List.length_take] at this
  have := List.mem_range.1 hn
  omega

/-- the check and the directory -/
theorem early_dir (hd : ∀ q, q <+: X.P → q ≠ X.P → X.σ₀ q = some .dir) (h0 : X.P ≠ []) {K : Unit → FsProg α}
    (hc : X.Mid (K ()) false true ∨ (X.w = false ∧ ∃ r, K () = .ret r ∧ X.Done r)) :
    X.Early (FsProg.bind (FsProg.bind (FsProg.look (FsM.exist X.P)) fun e =>
      if e = true then FsProg.lift (.throw .invalidArgument) else Stepwise.createDirectories X.P) K) := by
  show X.Early (FsProg.act id fun σ => FsProg.bind _ K)
  intro σ hS
  refine ⟨rfl, .inr ?_⟩
  show X.Mid (FsProg.bind (if (σ X.P).isSome = true then _ else _) K) false false ∨
    (_ ∧ FsProg.bind (if (σ X.P).isSome = true then _ else _) K = _)
  rcases hS.dir with e | e
  · left
    rw [if_neg (by rw [e]; decide)]
    exact mid_createDirectories hd h0 hc
  · right
    rw [if_pos (by rw [e]; rfl)]
    exact ⟨e, rfl⟩

/-- is the group in which it is made zarr? -/
theorem early_isZarr {root : GroupHandle} (h1 : ∀ q ∈ [root.path, root.path ++ [".zgroup"], root.path ++ ["zarr.json"]], ¬ X.P <+: q)
    (h2 : (X.σ₀ root.path).isSome = true) {z : Bool}
    (hz : ((X.σ₀ (root.path ++ [".zgroup"])).isSome || (X.σ₀ (root.path ++ ["zarr.json"])).isSome) = z) {K : Bool → FsProg α}
    (hK : X.Early (K z)) : X.Early ((Stepwise.groupIsZarr root).bind K) := by
  show X.Early (FsProg.act id fun σ => FsProg.bind _ K)
  intro σ hS
  refine ⟨rfl, .inl ?_⟩
  show X.Early (FsProg.bind (if (!(σ root.path).isSome) = true then _ else _) K)
  rw [if_neg (by rw [hS.other _ (h1 _ (by simp)), h2]; decide)]
  show X.Early (FsProg.act id fun σ => FsProg.bind _ K)
  intro σ' hS'
  refine ⟨rfl, .inl ?_⟩
  show X.Early (FsProg.act id fun σ => FsProg.bind _ K)
  intro σ'' hS''
  refine ⟨rfl, .inl ?_⟩
  show X.Early (K ((σ' (root.path ++ [".zgroup"])).isSome || (σ'' (root.path ++ ["zarr.json"])).isSome))
  rw [hS'.other _ (h1 _ (by simp)), hS''.other _ (h1 _ (by simp)), hz]
  exact hK

/-- reading a document that may be there -/
theorem mid_jsonRead {x : String} (hX : X.F = X.P ++ [x]) (hrd : X.reads = true) {K : Option Json → FsProg α} (h1 : X.Mid (K none) false true)
    (h2 : X.Mid (K (some X.J)) true true) : X.Mid ((Stepwise.jsonRead X.P [x]).bind K) false true := by
  show X.Mid (FsProg.act id fun σ => FsProg.bind _ K) false true
  intro σ hS _ hd
  left
  refine ⟨.inl rfl, .inl ?_⟩
  have hd : ∀ b : Bool, (true = true → id σ X.P = some .dir) := fun _ => hd
  show ∃ b' d', _ ∧ _ ∧ X.Mid (FsProg.bind (if (!(σ (X.P ++ [x])).isSome) = true then _ else _) K) b' d'
  rw [← hX]
  by_cases e : σ X.F = none
  · rw [if_pos (by rw [e]; rfl)]
    exact ⟨false, true, (fun e => by cases e), hd true, h1⟩
  · refine ⟨true, true, fun _ => e, hd true, ?_⟩
    rw [if_neg (by cases h : σ X.F with | none => exact absurd h e | some v => exact fun e => by cases e)]
    show X.Mid (FsProg.act id fun σ => FsProg.bind _ K) true true
    intro σ' hS' hb' hd'
    left
    refine ⟨.inl rfl, ?_⟩
    show (∃ b' d', _ ∧ _ ∧ X.Mid (FsProg.bind (FsProg.bind (.ret (FsM.parse X.F σ').1) _) K) b' d') ∨
      (_ ∧ FsProg.bind (FsProg.bind (.ret (FsM.parse X.F σ').1) _) K = _) ∨ _
    rcases hS'.doc with e' | ⟨v, e'⟩ | e'
    · exact absurd e' (hb' rfl)
    · right; left
      have hp : (FsM.parse X.F σ').1 = .throw .typeError := by rw [FsM.parse, e']
      rw [hp]
      exact ⟨⟨hrd, v, e'⟩, rfl⟩
    · left
      have hp : (FsM.parse X.F σ').1 = .ok X.J := by rw [FsM.parse, e']
      rw [hp]
      exact ⟨true, true, hb', hd', h2⟩

end Race
end Z5
