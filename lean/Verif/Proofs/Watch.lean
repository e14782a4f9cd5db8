import Verif.Proofs.RaceSteps
import Verif.Proofs.Concurrent
import Verif.Props.Steps

/-!
# Programs that only look, while another program works (for C97)
-/

namespace Z5

namespace FsProg

variable {α β : Type} {S : Fs → Prop} {Q : Res α → Prop}

/-- A program that only looks, at file systems in `S` that may change from look to look; its outcomes are in `Q`. -/
def Meets (S : Fs → Prop) (Q : Res α → Prop) : FsProg α → Prop
  | .ret r => Q r
  | .act f c => ∀ σ, S σ → f σ = σ ∧ Meets S Q (c σ)

theorem Meets.bind {R : Res β → Prop} {K : α → FsProg β} (hok : ∀ a, Q (.ok a) → Meets S R (K a)) (hth : ∀ e, Q (.throw e) → R (.throw e))
    (hub : Q .ub → R .ub) : ∀ {t : FsProg α}, Meets S Q t → Meets S R (t.bind K)
  | .ret (.ok _), h => hok _ h
  | .ret (.throw _), h => hth _ h
  | .ret .ub, h => hub h
  | .act _ _, h => fun σ hσ => ⟨(h σ hσ).1, Meets.bind hok hth hub (h σ hσ).2⟩

theorem Meets.mono {Q' : Res α → Prop} (h : ∀ r, Q r → Q' r) : ∀ {t : FsProg α}, Meets S Q t → Meets S Q' t
  | .ret _, hr => h _ hr
  | .act _ _, hr => fun σ hσ => ⟨(hr σ hσ).1, Meets.mono h (hr σ hσ).2⟩

theorem Meets.run : ∀ {t : FsProg α} {σ : Fs}, Meets S Q t → S σ → Q (t.run σ).1
  | .ret _, _, h, _ => h
  | .act f c, σ, h, hσ => by
    obtain ⟨h1, h2⟩ := h σ hσ
    show Q ((c σ).run (f σ)).1
    rw [h1]
    exact h2.run hσ

theorem Meets.exist {p : Path} {K : Bool → FsProg α} (h : ∀ σ, S σ → Meets S Q (K (σ p).isSome)) :
    Meets S Q ((look (FsM.exist p)).bind K) := fun σ hσ => ⟨rfl, h σ hσ⟩

theorem Meets.parse {p : Path} {K : Json → FsProg α} (h : ∀ σ, S σ → ∀ j, σ p = some (.doc j) → Meets S Q (K j))
    (h' : ∀ σ, S σ → (∀ j, σ p ≠ some (.doc j)) → Q (.throw .typeError)) : Meets S Q ((look (FsM.parse p)).bind K) := fun σ hσ => by
  refine ⟨rfl, ?_⟩
  show Meets S Q (FsProg.bind (.ret (FsM.parse p σ).1) K)
  by_cases e : ∃ j, σ p = some (.doc j)
  · obtain ⟨j, e⟩ := e
    rw [show (FsM.parse p σ).1 = .ok j from by rw [FsM.parse, e]]
    exact h σ hσ j e
  · have e : ∀ j, σ p ≠ some (.doc j) := fun j hj => e ⟨j, hj⟩
    rw [show (FsM.parse p σ).1 = .throw .typeError from by
      unfold FsM.parse
      split
      · rename_i j hj
        exact absurd hj (e j)
      · rfl]
    exact h' σ hσ e

/-- One program works, and the others look: they see the file systems on its way. -/
theorem watch {Q : Nat → Res α → Prop} : ∀ (is : List Nat) (w : FsProg α) (σ : Fs) (ts : List (FsProg α)), (∀ n, S (w.crash n σ)) →
    (∀ (i : Nat) (t : FsProg α), ts[i]? = some t → Meets S (Q i) t) →
    ∃ w' σ' ts', interleave is (w :: ts, σ) = (w' :: ts', σ') ∧ w'.run σ' = w.run σ ∧ S σ' ∧
      ∀ (i : Nat) (t : FsProg α), ts'[i]? = some t → Meets S (Q i) t
  | [], w, σ, ts, hS, ht => ⟨w, σ, ts, rfl, rfl, hS 0, ht⟩
  | 0 :: is, .ret r, σ, ts, hS, ht => watch is (.ret r) σ ts hS ht
  | 0 :: is, .act f c, σ, ts, hS, ht => watch is (c σ) (f σ) ts (fun n => hS (n + 1)) ht
  | (i + 1) :: is, w, σ, ts, hS, ht => by
    have h0 : S σ := hS 0
    cases hi : ts[i]? with
    | none =>
      have e : step (i + 1) (w :: ts, σ) = (w :: ts, σ) := by
        unfold step
        rw [show (w :: ts, σ).1[i + 1]? = none from hi]
      obtain ⟨w', σ', ts', g⟩ := watch is w σ ts hS ht
      refine ⟨w', σ', ts', ?_, g.2⟩
      show interleave is (step (i + 1) (w :: ts, σ)) = _
      rw [e]; exact g.1
    | some t =>
      have hm := ht i t hi
      cases t with
      | ret r =>
        have e : step (i + 1) (w :: ts, σ) = (w :: ts, σ) := by
          unfold step
          rw [show (w :: ts, σ).1[i + 1]? = some (.ret r) from hi]
        obtain ⟨w', σ', ts', g⟩ := watch is w σ ts hS ht
        refine ⟨w', σ', ts', ?_, g.2⟩
        show interleave is (step (i + 1) (w :: ts, σ)) = _
        rw [e]; exact g.1
      | act f c =>
        obtain ⟨hf, hc⟩ := hm σ h0
        have e : step (i + 1) (w :: ts, σ) = (w :: ts.set i (c σ), σ) := by
          unfold step
          rw [show (w :: ts, σ).1[i + 1]? = some (.act f c) from hi]
          show ((w :: ts).set (i + 1) (c σ), f σ) = _
          rw [hf]
          rfl
        obtain ⟨w', σ', ts', g⟩ := watch is w σ (ts.set i (c σ)) hS fun j t hj => by
          rcases Race.getElem?_set_cases hj with ⟨rfl, rfl⟩ | ⟨_, hj⟩
          · exact hc
          · exact ht j t hj
        refine ⟨w', σ', ts', ?_, g.2⟩
        show interleave is (step (i + 1) (w :: ts, σ)) = _
        rw [e]; exact g.1

end FsProg

open FsProg

variable {S : Fs → Prop}

/-! ### reading attributes -/

/-- what a document says -/
def docValue : Option Entry → Res (Option Json)
  | none => .ok none
  | some (.doc j) => .ok (some j)
  | some _ => .throw .typeError

/-- an outcome of reading the document at `F` -/
def ReadDoc (S : Fs → Prop) (F : Path) (r : Res (Option Json)) : Prop :=
  (∃ σ, S σ ∧ r = docValue (σ F)) ∨ (r = .throw .typeError ∧ ∃ σ σ', S σ ∧ S σ' ∧ σ F ≠ none ∧ σ' F = none)

theorem meets_jsonRead (base name : Path) : Meets S (ReadDoc S (base ++ name)) (Stepwise.jsonRead base name) := by
  show Meets S _ ((look (FsM.exist (base ++ name))).bind _)
  refine Meets.exist fun σ hσ => ?_
  cases e : σ (base ++ name) with
  | none => exact .inl ⟨σ, hσ, by rw [e]; rfl⟩
  | some v =>
    show Meets S _ ((look (FsM.parse (base ++ name))).bind _)
    refine Meets.parse (fun σ' hσ' j hj => .inl ⟨σ', hσ', by rw [hj]; rfl⟩) fun σ' hσ' hj => ?_
    cases e' : σ' (base ++ name) with
    | none => exact .inr ⟨rfl, σ, σ', hσ, hσ', (by rw [e]; exact fun e => by cases e), e'⟩
    | some v' =>
      refine .inl ⟨σ', hσ', ?_⟩
      rw [e']
      cases v' with
      | doc j => exact absurd e' (hj j)
      | _ => rfl

/-- the attributes in the document of a node -/
def attrsIn (L : Layout) : Option Json → Json
  | none => .null
  | some j => if L = .v3 then (j.find "attributes").getD .null else j

theorem meets_readAttributes {base : Path} {L : Layout} (hz : L.isZarr = true → ∀ σ, S σ → (σ (base ++ ["zarr.json"])).isSome = decide (L = .v3)) :
    Meets S (fun r => ∃ r', ReadDoc S (base ++ [L.file]) r' ∧ r = (attrsIn L) <$> r') (Stepwise.readAttributes base L.isZarr .null) := by
  show Meets S _ ((look (FsM.exist (base ++ ["zarr.json"]))).bind _)
  refine Meets.exist fun σ hσ => ?_
  cases L with
  | v2 =>
    rw [hz rfl σ hσ]
    show Meets S _ (FsProg.bind (Stepwise.jsonRead base [".zattrs"]) _)
    refine Meets.bind (fun a ha => ?_) (fun e he => ⟨_, he, rfl⟩) (fun he => ⟨_, he, rfl⟩) (meets_jsonRead base [".zattrs"])
    refine (⟨_, ha, ?_⟩ : ∃ r', ReadDoc S (base ++ [".zattrs"]) r' ∧ _ = (attrsIn .v2) <$> r')
    cases a <;> rfl
  | n5 =>
    show Meets S _ (FsProg.bind (Stepwise.jsonRead base ["attributes.json"]) _)
    refine Meets.bind (fun a ha => ?_) (fun e he => ⟨_, he, rfl⟩) (fun he => ⟨_, he, rfl⟩) (meets_jsonRead base ["attributes.json"])
    refine (⟨_, ha, ?_⟩ : ∃ r', ReadDoc S (base ++ ["attributes.json"]) r' ∧ _ = (attrsIn .n5) <$> r')
    cases a <;> rfl
  | v3 =>
    rw [hz rfl σ hσ]
    show Meets S _ (FsProg.bind (Stepwise.jsonRead base ["zarr.json"]) _)
    refine Meets.bind (fun a ha => ?_) (fun e he => ⟨_, he, rfl⟩) (fun he => ⟨_, he, rfl⟩) (meets_jsonRead base ["zarr.json"])
    cases a with
    | none => exact ⟨_, ha, rfl⟩
    | some j => exact ⟨_, ha, rfl⟩

theorem meets_groupIsZarr {g : GroupHandle} {z : Bool} (h : ∀ σ, S σ → (σ g.path).isSome = true) {b b' : Bool}
    (hb : ∀ σ, S σ → (σ (g.path ++ [".zgroup"])).isSome = b) (hb' : ∀ σ, S σ → (σ (g.path ++ ["zarr.json"])).isSome = b') (hz : (b || b') = z) :
    Meets S (· = .ok z) (Stepwise.groupIsZarr g) := by
  show Meets S _ ((look (FsM.exist g.path)).bind _)
  refine Meets.exist fun σ hσ => ?_
  rw [h σ hσ]
  show Meets S _ ((look (FsM.exist (g.path ++ [".zgroup"]))).bind _)
  refine Meets.exist fun σ hσ => ?_
  show Meets S _ ((look (FsM.exist (g.path ++ ["zarr.json"]))).bind _)
  refine Meets.exist fun σ' hσ' => ?_
  show Res.ok _ = _
  rw [hb σ hσ, hb' σ' hσ', hz]

theorem meets_datasetIsZarr {d : DatasetHandle} {z : Bool} (hc : ∀ b, d.cache = some b → b = z)
    (h : d.cache = none → (∀ σ, S σ → (σ d.path).isSome = true) ∧ ∃ b b', (∀ σ, S σ → (σ (d.path ++ [".zarray"])).isSome = b) ∧
      (∀ σ, S σ → (σ (d.path ++ ["zarr.json"])).isSome = b') ∧ (b || b') = z) :
    Meets S (· = .ok z) (Stepwise.datasetIsZarr d) := by
  unfold Stepwise.datasetIsZarr
  cases e : d.cache with
  | some b => exact congrArg Res.ok (hc b e)
  | none =>
    obtain ⟨h, b, b', hb, hb', hz⟩ := h e
    show Meets S _ ((look (FsM.exist d.path)).bind _)
    refine Meets.exist fun σ hσ => ?_
    rw [h σ hσ]
    show Meets S _ ((look (FsM.exist (d.path ++ [".zarray"]))).bind _)
    refine Meets.exist fun σ hσ => ?_
    show Meets S _ ((look (FsM.exist (d.path ++ ["zarr.json"]))).bind _)
    refine Meets.exist fun σ' hσ' => ?_
    show Res.ok _ = _
    rw [hb σ hσ, hb' σ' hσ', hz]

/-- what a handle shows of the attributes in a document -/
def shownIn (t : Target) (L : Layout) (j : Json) : Res Json :=
  match t with
  | .dataset _ => if L.isZarr then .ok j else hideN5Dataset j
  | _ => .ok j

/-- an outcome of reading the attributes -/
def ReadAttrs (S : Fs → Prop) (t : Target) (L : Layout) (r : Res Answer) : Prop :=
  ∃ r', ReadDoc S (t.path ++ [L.file]) r' ∧ r = (r' >>= fun j => Answer.attributes <$> shownIn t L (attrsIn L j))

/-- the same in all these file systems -/
structure Alike (S : Fs → Prop) (σ₀ : Fs) (p : Path) : Prop where
  looks : ∀ σ, S σ → (σ p).isSome = (σ₀ p).isSome ∧ ∀ x, x = ".zgroup" ∨ x = ".zarray" ∨ x = "zarr.json" →
    (σ (p ++ [x])).isSome = (σ₀ (p ++ [x])).isSome

theorem meets_read {D : Disk} {t : Target} {σ₀ : Fs} {L : Layout} (h : t.Refers σ₀ L) (hS : Alike S σ₀ t.path) :
    Meets S (ReadAttrs S t L) (Call.steps D (.read t)) := by
  have hv3 : L.isZarr = true → ∀ σ, S σ → (σ (t.path ++ ["zarr.json"])).isSome = decide (L = .v3) := fun hL σ hσ => by
    rw [(hS.looks σ hσ).2 _ (.inr (.inr rfl))]
    cases L with
    | v2 => rw [h.node.v2 rfl]; rfl
    | v3 => obtain ⟨j, e, _⟩ := h.node.v3 rfl; rw [e]; rfl
    | n5 => cases hL
  have hgroup : ∀ g : GroupHandle, g.path = t.path → g.isZarr σ₀ = (.ok L.isZarr, σ₀) → (∀ j, shownIn t L j = .ok j) →
      Meets S (ReadAttrs S t L) (do return .attributes (← Stepwise.readGroupAttributes g .null)) := by
    intro g hg hz hsh
    rw [Z5.group_isZarr] at hz
    have hz := congrArg Prod.fst hz
    split at hz
    case isFalse => cases hz
    rename_i hd
    have hz : ((σ₀ (g.path ++ [".zgroup"])).isSome || (σ₀ (g.path ++ ["zarr.json"])).isSome) = L.isZarr := Res.ok.inj hz
    rw [hg] at hz hd
    show Meets S _ (FsProg.bind (FsProg.bind (Stepwise.groupIsZarr g) fun z => Stepwise.readAttributes g.path z .null) _)
    refine Meets.bind (Q := fun r => ∃ r', ReadDoc S (t.path ++ [L.file]) r' ∧ r = (attrsIn L) <$> r') (fun a ha => ?_) (fun e he => ?_) (fun he => ?_)
      (Meets.bind (Q := (· = .ok L.isZarr)) (fun z hz => ?_) (fun e he => by cases he) (fun he => by cases he)
        (meets_groupIsZarr (by rw [hg]; exact fun σ hσ => ((hS.looks σ hσ).1.trans hd)) (fun σ hσ => by rw [hg]; exact (hS.looks σ hσ).2 _ (.inl rfl))
          (fun σ hσ => by rw [hg]; exact (hS.looks σ hσ).2 _ (.inr (.inr rfl))) hz))
    · obtain ⟨r', h1, h2⟩ := ha
      refine ⟨r', h1, ?_⟩
      cases r' with
      | ok j =>
        have h2 : a = attrsIn L j := Res.ok.inj h2
        show Res.ok (Answer.attributes a) = Answer.attributes <$> shownIn t L (attrsIn L j)
        rw [hsh, ← h2]; rfl
      | throw e => cases h2
      | ub => cases h2
    · obtain ⟨r', h1, h2⟩ := he
      refine ⟨r', h1, ?_⟩
      cases r' with
      | ok j => cases h2
      | throw e => cases h2; rfl
      | ub => cases h2
    · obtain ⟨r', h1, h2⟩ := he
      refine ⟨r', h1, ?_⟩
      cases r' with
      | ok j => cases h2
      | throw e => cases h2
      | ub => rfl
    · cases hz
      rw [hg]
      exact meets_readAttributes hv3
  cases t with
  | group g => exact hgroup g rfl h.zarr fun _ => rfl
  | file g => exact hgroup g rfl h.zarr fun _ => rfl
  | dataset d =>
    have hz : Meets S (· = .ok L.isZarr) (Stepwise.datasetIsZarr d) := by
      have hz := h.zarr
      have hz : d.isZarr σ₀ = (.ok L.isZarr, σ₀) := hz
      rw [Z5.dataset_isZarr] at hz
      have hz := congrArg Prod.fst hz
      refine meets_datasetIsZarr (fun b e => ?_) fun e => ?_
      · rw [e] at hz
        exact Res.ok.inj hz
      · rw [e] at hz
        have hz : (if (σ₀ d.path).isSome = true then Res.ok ((σ₀ (d.path ++ [".zarray"])).isSome || (σ₀ (d.path ++ ["zarr.json"])).isSome)
          else Res.throw .runtimeError) = .ok L.isZarr := hz
        split at hz
        case isFalse => cases hz
        rename_i hd
        exact ⟨fun σ hσ => (hS.looks σ hσ).1.trans hd, _, _, fun σ hσ => (hS.looks σ hσ).2 _ (.inr (.inl rfl)),
          fun σ hσ => (hS.looks σ hσ).2 _ (.inr (.inr rfl)), Res.ok.inj hz⟩
    show Meets S _ (FsProg.bind (FsProg.bind (Stepwise.datasetIsZarr d) fun z => FsProg.bind (Stepwise.readAttributes d.path z .null) fun j =>
      FsProg.bind (Stepwise.datasetIsZarr d) fun z' => if (!z') = true then FsProg.lift (hideN5Dataset j) else .ret (.ok j))
        fun j => .ret (.ok (Answer.attributes j)))
    rw [FsProg.bind_assoc]
    refine Meets.bind (fun z e => ?_) (fun e he => by cases he) (fun he => by cases he) hz
    cases e
    rw [FsProg.bind_assoc]
    refine Meets.bind (fun j hj => ?_) (fun e he => ?_) (fun he => ?_) (meets_readAttributes (S := S) (base := d.path) (L := L) hv3)
    · obtain ⟨r', h1, h2⟩ := hj
      rw [FsProg.bind_assoc]
      refine Meets.bind (fun z e => ?_) (fun e he => by cases he) (fun he => by cases he) hz
      cases e
      have hq : ReadAttrs S (.dataset d) L (Answer.attributes <$> shownIn (.dataset d) L j) := by
        refine ⟨r', h1, ?_⟩
        cases r' with
        | ok j' =>
          have h2 : j = attrsIn L j' := Res.ok.inj h2
          rw [h2]; rfl
        | throw e => cases h2
        | ub => cases h2
      cases hz : L.isZarr with
      | true =>
        have e : shownIn (.dataset d) L j = .ok j := by show (if L.isZarr = true then _ else _) = _; rw [hz]; rfl
        rw [e] at hq
        exact hq
      | false =>
        have e : shownIn (.dataset d) L j = hideN5Dataset j := by show (if L.isZarr = true then _ else _) = _; rw [hz]; rfl
        rw [e] at hq
        show Meets S _ (FsProg.bind (.ret (hideN5Dataset j)) _)
        cases hh : hideN5Dataset j <;> rw [hh] at hq <;> exact hq
    · obtain ⟨r', h1, h2⟩ := he
      refine ⟨r', h1, ?_⟩
      cases r' with
      | ok j => cases h2
      | throw e => cases h2; rfl
      | ub => cases h2
    · obtain ⟨r', h1, h2⟩ := he
      refine ⟨r', h1, ?_⟩
      cases r' with
      | ok j => cases h2
      | throw e => cases h2
      | ub => rfl

end Z5
