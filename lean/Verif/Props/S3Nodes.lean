import Verif.Proofs.S3Nodes
import Verif.Props.Attributes

/-!
# C56: user attributes on S3
-/

namespace Z5

/-- **C56.**  One change of the attributes of a node on S3, while others leave the bucket alone.  A change that names a
    locked key (the metadata of an N5 dataset, the version of an N5 file) throws and changes nothing.  Any other
    succeeds, the attributes are changed as those of a map are and nothing else is changed, unless a request fails:
    then it throws, and has been made completely or not at all.  So has one that is interrupted. -/
theorem c56_change {t : S3Target} {b : Bucket} {L : Layout} {op : AttrOp} (hw : t.mode.canWrite = true)
    (h : t.Refers b L) (hop : op.Valid) :
    (op.names (t.locked L) = true → (t.change op).Does 11 b (.throw .runtimeError) b) ∧
    (op.names (t.locked L) = false → ∃ b', (t.change op).Does 11 b (.ok ()) b' ∧
      b.OnlyAttributes b' t.name L (op.apply (b.attributes t.name L)) ∧ t.Refers b' L) := by
  refine ⟨(S3Target.change_does (b' := b) hw h).1, fun e => ?_⟩
  cases op with
  | write j =>
    obtain ⟨b', h1, h2⟩ := s3_write h.node (j := j) hop
    exact ⟨b', (S3Target.change_does hw h).2 e h1, h2, h.after h2⟩
  | remove k =>
    obtain ⟨b', h1, h2⟩ := s3_remove h.node (key := k)
    exact ⟨b', (S3Target.change_does hw h).2 e h1, h2, h.after h2⟩

/-- **C56.**  With a handle that may not write, every change is refused, whatever happens, without a request. -/
theorem c56_readonly {t : S3Target} {op : AttrOp} (hw : t.mode.canWrite = false) (w : World) :
    t.change op w = (some (.throw .invalidArgument), w) := by
  cases t with
  | group g =>
    have hw : g.mode.canWrite = false := hw
    cases op <;>
      simp [S3Target.change, S3Handle.writeAttributes, S3Handle.removeAttribute, hw, S3M.lift]
  | file g =>
    have hw : g.mode.canWrite = false := hw
    cases op <;>
      simp [S3Target.change, S3Handle.writeFileAttributes, S3Handle.removeFileAttribute, hw, S3M.lift]
  | dataset d =>
    have hw : d.base.mode.canWrite = false := hw
    cases op <;>
      simp [S3Target.change, S3DatasetHandle.writeAttributes, S3DatasetHandle.removeAttribute, hw, S3M.lift]

/-- **C56.**  Reading shows the attributes, and changes nothing. -/
theorem c56_read {t : S3Target} {b : Bucket} {L : Layout} (h : t.Refers b L) :
    ∃ j, t.read.Does 6 b (.ok j) b ∧ ∀ k, j.find k = t.shown L (b.attributes t.name L) k :=
  S3Target.read_does h

theorem Bucket.OnlyAttributes.trans {b b' b'' : Bucket} {name : Key} {L : Layout} {A B : AttrMap}
    (h : b.OnlyAttributes b' name L A) (h' : b'.OnlyAttributes b'' name L B) : b.OnlyAttributes b'' name L B :=
  ⟨h'.node, h'.attributes, fun k hk => (h'.objects k hk).trans (h.objects k hk),
    fun e k hk => (h'.rest e k hk).trans (h.rest e k hk), fun e => h'.kept (h.kept e), fun e => h'.written (h.written e), fun e => h'.wf (h.wf e)⟩

/-- what one call of a history does -/
theorem S3Target.change_step {t : S3Target} {b : Bucket} {L : Layout} {op : AttrOp} {es : List Event}
    (hw : t.mode.canWrite = true) (h : t.Refers b L) (hop : op.Valid) (hes : ∀ e ∈ es, e.Reliable) :
    ∃ effect : Bool, ((t.change op ⟨es, b⟩).1 = some (.ok ()) → effect = true) ∧
      b.OnlyAttributes (t.change op ⟨es, b⟩).2.bucket t.name L
        (if effect && !op.names (t.locked L) then op.apply (b.attributes t.name L) else b.attributes t.name L) ∧
      t.Refers (t.change op ⟨es, b⟩).2.bucket L := by
  obtain ⟨h1, h2⟩ := c56_change hw h hop
  have same : b.OnlyAttributes b t.name L (b.attributes t.name L) := h.node.same rfl
  cases hn : op.names (t.locked L) with
  | true =>
    refine ⟨true, fun _ => rfl, ?_⟩
    rcases h1 hn es hes with ⟨es', _, _, e⟩ | ⟨es', b'', _, e, hb, _⟩ | ⟨_, e⟩
    · rw [e]
      exact ⟨same, h⟩
    · rw [e]
      have hb : b'' = b := hb.elim id id
      subst hb
      exact ⟨same, h⟩
    · rw [e]
      exact ⟨same, h⟩
  | false =>
    obtain ⟨b', hd, ho, hr⟩ := h2 hn
    rcases hd es hes with ⟨es', _, _, e⟩ | ⟨es', b'', _, e, hb, _⟩ | ⟨_, e⟩
    · refine ⟨true, fun _ => rfl, ?_⟩
      rw [e]
      exact ⟨ho, hr⟩
    · rw [e]
      rcases hb with rfl | rfl
      · exact ⟨false, (fun e => by cases e), same, h⟩
      · exact ⟨true, fun _ => rfl, ho, hr⟩
    · rw [e]
      exact ⟨false, (fun e => by cases e), same, h⟩

theorem S3Target.history_ok {t : S3Target} {L : Layout} (hw : t.mode.canWrite = true) :
    ∀ {ops : List (AttrOp × List Event)} {b : Bucket}, t.Refers b L →
    (∀ p ∈ ops, p.1.Valid ∧ ∀ e ∈ p.2, e.Reliable) →
    ∃ effects : List Bool, effects.length = ops.length ∧
      (∀ i : Nat, (t.history ops b).1[i]? = some (some (.ok ())) → effects[i]? = some true) ∧
      b.OnlyAttributes (t.history ops b).2 t.name L
        (t.replay L ((ops.map Prod.fst).zip effects) (b.attributes t.name L)) ∧
      t.Refers (t.history ops b).2 L
  | [], b, h, _ => ⟨[], rfl, (fun i e => by simp [history] at e), h.node.same rfl, h⟩
  | (op, es) :: ops, b, h, hv => by
    obtain ⟨hop, hes⟩ := hv (op, es) List.mem_cons_self
    obtain ⟨effect, h1, h2, h3⟩ := change_step hw h hop hes
    obtain ⟨effects, g0, g1, g2, g3⟩ := history_ok hw h3 fun p hp => hv p (List.mem_cons_of_mem _ hp)
    refine ⟨effect :: effects, by simp [g0], fun i hi => ?_, ?_, g3⟩
    · cases i with
      | zero => exact congrArg some (h1 (Option.some.inj hi))
      | succ i => exact g1 i hi
    · rw [h2.attributes] at g2
      exact h2.trans g2

/-- **C56.**  Over any history of changes, some of which throw, fail or are interrupted, reading the attributes shows
    the map obtained by applying changes in order: all those that returned, and some of the others; and nothing but
    the attributes has changed. -/
theorem c56_history {t : S3Target} {L : Layout} {ops : List (AttrOp × List Event)} {b : Bucket}
    (hw : t.mode.canWrite = true) (h : t.Refers b L)
    (hv : ∀ p ∈ ops, p.1.Valid ∧ ∀ e ∈ p.2, e.Reliable) :
    ∃ effects : List Bool, effects.length = ops.length ∧
      (∀ i : Nat, (t.history ops b).1[i]? = some (some (.ok ())) → effects[i]? = some true) ∧
      let A := t.replay L ((ops.map Prod.fst).zip effects) (b.attributes t.name L)
      b.OnlyAttributes (t.history ops b).2 t.name L A ∧ t.Refers (t.history ops b).2 L ∧
      ∃ j, t.read.Does 6 (t.history ops b).2 (.ok j) (t.history ops b).2 ∧ ∀ k, j.find k = t.shown L A k := by
  obtain ⟨effects, h0, h1, h2, h3⟩ := S3Target.history_ok hw h hv
  obtain ⟨j, hj, e⟩ := c56_read h3
  exact ⟨effects, h0, h1, h2, h3, j, hj, fun k => by rw [e, h2.attributes]⟩

/-! ### the metadata of a dataset -/

/-- what `readS3Metadata` reads -/
def Bucket.metadata (b : Bucket) (base : Key) : Res Meta :=
  let v3 := (b.get (docKey base "zarr.json")).isSome
  let v2 := !v3 && (b.get (docKey base ".zarray")).isSome
  match b.get (docKey base (if v3 then "zarr.json" else if v2 then ".zarray" else "attributes.json")) with
  | none => .throw .runtimeError
  | some (.doc j) => Meta.fromJson j (v3 || v2)
  | some (.file []) => Meta.fromJson (.obj []) (v3 || v2)
  | some (.file (_ :: _)) => .throw .typeError

theorem readS3Metadata_does (base : Key) (b : Bucket) : (readS3Metadata base).Does 3 b (b.metadata base) b := by
  unfold readS3Metadata Bucket.metadata
  have fin : ∀ (name : String) (z : Bool), (s3Read base name >>= fun o => match o with
      | none => S3M.lift (.throw .runtimeError)
      | some j => S3M.lift (Meta.fromJson j z)).Does 1 b (match b.get (docKey base name) with
        | none => .throw .runtimeError
        | some (.doc j) => Meta.fromJson j z
        | some (.file []) => Meta.fromJson (.obj []) z
        | some (.file (_ :: _)) => .throw .typeError) b := by
    intro name z
    cases hb : b.get (docKey base name) with
    | none => exact (s3Read_none hb).bind (m := 0) (.lift _ _)
    | some o =>
      cases o with
      | doc j => exact (s3Read_doc (j := j) (by simp only [Bucket.docAt, hb])).bind (m := 0) (.lift _ _)
      | file l =>
        cases l with
        | nil => exact (s3Read_doc (j := .obj []) (by simp only [Bucket.docAt, hb])).bind (m := 0) (.lift _ _)
        | cons x l =>
          have : (s3Read base name).Does 1 b (.throw .typeError) b := by
            have hg := getObject_does (docKey base name) b
            rw [hb] at hg
            exact hg.bind (m := 0) (.lift _ _)
          exact this.bind_throw
  refine (objectExists_does (docKey base "zarr.json") b).bind (m := 2) ?_
  cases h3 : (b.get (docKey base "zarr.json")).isSome with
  | true => exact ((S3M.Does.pure false b).bind (m := 1) (fin "zarr.json" true)).mono (by omega)
  | false =>
    refine (objectExists_does (docKey base ".zarray") b).bind (m := 1) ?_
    cases h2 : (b.get (docKey base ".zarray")).isSome with
    | true => exact fin ".zarray" true
    | false => exact fin "attributes.json" false

/-- If nothing but the attributes of a dataset changed, the same metadata are read. -/
theorem Bucket.OnlyAttributes.metadata {d : S3DatasetHandle} {L : Layout} {A : AttrMap} {b b' : Bucket}
    (h : (S3Target.dataset d).Refers b L) (ho : b.OnlyAttributes b' d.name L A)
    (hk : L = .n5 → ∀ k ∈ n5DatasetKeys, A k = b.attributes d.name L k) :
    b'.metadata d.name = b.metadata d.name := by
  have hn : b.Node d.name L := h.node
  have ob : ∀ n, n ≠ L.file → b'.get (docKey d.name n) = b.get (docKey d.name n) :=
    fun n hne => ho.objects _ fun e => hne (docKey_inj e)
  have doc : ∀ {c : Bucket} {n : String} {j : Json} {z : Bool}, c.docAt (docKey d.name n) = some j →
      (match c.get (docKey d.name n) with
        | none => .throw .runtimeError
        | some (.doc j) => Meta.fromJson j z
        | some (.file []) => Meta.fromJson (.obj []) z
        | some (.file (_ :: _)) => .throw .typeError) = Meta.fromJson j z := by
    intro c n j z hc
    unfold Bucket.docAt at hc
    split at hc <;> first | (cases hc; rename_i e; rw [e]) | cases hc
  unfold Bucket.metadata
  cases L with
  | v2 =>
    rw [ob "zarr.json" (by decide), ob ".zarray" (by decide)]
    dsimp only
    rw [ob]
    split
    · decide
    · split <;> decide
  | v3 =>
    obtain ⟨j, ej, oj, _⟩ := hn.v3 rfl
    obtain ⟨j', ej', oj', _⟩ := ho.node.v3 rfl
    have hr := ho.rest rfl
    simp only [ej, ej', Option.bind_some] at hr
    dsimp only
    rw [docAt_some ej, docAt_some ej']
    simp only [if_true, Bool.true_or]
    rw [doc ej, doc ej']
    exact fromJson_zarr_congr oj oj' hr
  | n5 =>
    rw [ob "zarr.json" (by decide), ob ".zarray" (by decide)]
    dsimp only
    obtain ⟨j, ej, oj⟩ := hn.doc.resolve_left (h.dataset d rfl rfl)
    obtain ⟨j', ej', oj'⟩ := ho.node.doc.resolve_left (ho.kept (h.dataset d rfl rfl))
    have ej : b.docAt (docKey d.name "attributes.json") = _ := ej
    have ej' : b'.docAt (docKey d.name "attributes.json") = _ := ej'
    cases h3 : (b.get (docKey d.name "zarr.json")).isSome with
    | true =>
      simp only [if_true]
      rw [ob "zarr.json" (by decide)]
    | false =>
      cases h2 : (b.get (docKey d.name ".zarray")).isSome with
      | true =>
        simp only [Bool.not_false, Bool.and_self, if_true, Bool.false_eq_true, if_false]
        rw [ob ".zarray" (by decide)]
      | false =>
        simp only [Bool.not_false, Bool.and_false, Bool.false_eq_true, if_false, Bool.or_self]
        rw [doc ej, doc ej']
        have hr := hk rfl
        have ha := ho.attributes
        refine fromJson_n5_congr oj oj' fun k hm => ?_
        have := hr k hm
        rw [← ha] at this
        simpa only [Bucket.attributes, Layout.file, ej, ej', Option.bind_some] using this

theorem S3Target.replay_locked {t : S3Target} {L : Layout} {k : String} (hk : k ∈ t.locked L) :
    ∀ {ops : List (AttrOp × Bool)} {A : AttrMap}, t.replay L ops A k = A k
  | [], _ => rfl
  | (op, effect) :: ops, A => by
    simp only [replay]
    rw [replay_locked hk]
    cases hn : op.names (t.locked L) with
    | true => simp
    | false =>
      cases effect with
      | true =>
        simp only [Bool.not_false, Bool.and_self, if_true]
        exact AttrOp.apply_of_not_names hn hk
      | false => rfl

/-- **C56.**  Whatever attributes are written to or removed from a dataset on S3, opening it again yields the same
    dataset, with the same metadata. -/
theorem c56_metadata {d : S3DatasetHandle} {L : Layout} {ops : List (AttrOp × List Event)} {b : Bucket}
    (hw : d.base.mode.canWrite = true) (h : (S3Target.dataset d).Refers b L)
    (hex : b.Exists d.name)
    (hv : ∀ p ∈ ops, p.1.Valid ∧ ∀ e ∈ p.2, e.Reliable) :
    let b' := ((S3Target.dataset d).history ops b).2
    (∃ r, (readS3Metadata d.name).Does 3 b r b ∧ (readS3Metadata d.name).Does 3 b' r b') ∧
    ∃ r, d.openDataset.Does 4 b r b ∧ d.openDataset.Does 4 b' r b' := by
  intro b'
  obtain ⟨effects, _, _, ho, _⟩ := S3Target.history_ok (t := .dataset d) hw h hv
  have ho : b.OnlyAttributes b' d.name L _ := ho
  have hm := ho.metadata h fun hL k hk => S3Target.replay_locked (t := .dataset d) (by subst hL; exact hk)
  have h1 := readS3Metadata_does d.name b
  have h2 := readS3Metadata_does d.name b'
  rw [hm] at h2
  refine ⟨⟨_, h1, h2⟩, ?_⟩
  have hex' : b'.Exists d.name := by
    obtain ⟨k, hk, hp⟩ := hex
    refine ⟨k, ?_, hp⟩
    by_cases e : k = docKey d.name L.file
    · subst e
      rw [mem_keys] at hk ⊢
      have := ho.kept (fun e => by rw [e] at hk; cases hk)
      cases hg : b'.get (docKey d.name L.file) with
      | none => exact absurd hg this
      | some o => rfl
    · exact (ho.mem_keys e).2 hk
  have op : ∀ c : Bucket, c.Exists d.name → c.metadata d.name = b.metadata d.name →
      d.openDataset.Does 4 c (do makeS3Dataset d (← b.metadata d.name)) c := by
    classical
    intro c hc hm
    unfold S3DatasetHandle.openDataset
    have he := exist_does ⟨d.name, d.base.mode⟩ c
    rw [decide_eq_true hc] at he
    refine he.bind (m := 3) ?_
    have hr := readS3Metadata_does d.name c
    rw [hm] at hr
    show (readS3Metadata d.name >>= fun m => S3M.lift (makeS3Dataset d m)).Does 3 c _ c
    cases hb : b.metadata d.name with
    | ok m =>
      rw [hb] at hr
      exact hr.bind (m := 0) (.lift _ _)
    | throw e =>
      rw [hb] at hr
      exact hr.bind_throw
    | ub =>
      rw [hb] at hr
      exact hr.bind_ub
  exact ⟨_, op b hex rfl, op b' hex' hm⟩

/-! ### Examples -/

/-- A zarr v3 container `a` with a group `g`, and beside it an N5 dataset `d` -/
def exS3 : Bucket :=
  [("a/g/zarr.json".toList, .doc (.obj [("zarr_format", .int 3), ("node_type", .str "group"),
      ("attributes", .obj [("name", .str "x")])])),
    ("a/zarr.json".toList, .doc v3GroupDoc),
    ("d/attributes.json".toList, .doc (.obj [("dimensions", .arr [.int 8]), ("blockSize", .arr [.int 4]),
      ("dataType", .str "uint8"), ("compression", .obj [("type", .str "raw")]), ("name", .str "x")]))]

def exS3Group : S3Target := .group ⟨"a/g".toList, .a⟩
def exS3Dataset : S3DatasetHandle := ⟨"d".toList, ⟨[], .a, ".", 2, "default", none⟩⟩

theorem exS3_group : exS3Group.Refers exS3 .v3 where
  node := ⟨.inr ⟨_, rfl, _, rfl, by decide⟩,
    fun _ => ⟨_, rfl, ⟨_, rfl, by decide⟩, fun a ha => by cases ha; exact ⟨_, rfl, by decide⟩⟩, (fun e => by cases e)⟩
  zarr := fun _ => ⟨fun _ => ⟨"zarr.json", by decide, .inl (by decide +kernel)⟩, fun _ => rfl⟩
  cached := fun z e => by cases e
  dataset := fun d e => by cases e

theorem exS3_dataset : (S3Target.dataset exS3Dataset).Refers exS3 .n5 where
  node := ⟨.inr ⟨_, rfl, _, rfl, by decide⟩, (fun e => by cases e), (fun e => by cases e)⟩
  zarr := fun _ => ⟨(fun e => by cases e), fun h => by
    exfalso
    revert h
    unfold Bucket.HasNode
    decide +kernel⟩
  cached := fun z e => by cases e
  dataset := fun d _ _ e => by cases e

/-- The hypotheses of `c56_history` and `c56_metadata` are met: a change of an attribute, one of the metadata (which is
    refused), a removal that is interrupted and a write whose last request is carried out but reported as failed. -/
example :
    let ops : List (AttrOp × List Event) :=
      [(.write (.obj [("a", .int 1)]), List.replicate 20 {}), (.write (.obj [("dimensions", .null)]), List.replicate 20 {}),
        (.remove "name", [{}]),
        (.write (.obj [("b", .int 2)]),
          List.replicate 20 { error := fun k => if k = .put then some (.other, true) else none })]
    let b' := ((S3Target.dataset exS3Dataset).history ops exS3).2
    (((S3Target.dataset exS3Dataset).history ops exS3).1
      = [some (.ok ()), some (.throw .runtimeError), none, some (.throw .runtimeError)]) ∧
    (∀ p ∈ ops, p.1.Valid ∧ ∀ e ∈ p.2, e.Reliable) ∧
    b'.attributes "d".toList .n5 "a" = some (.int 1) ∧ b'.attributes "d".toList .n5 "name" = some (.str "x") ∧
    b'.attributes "d".toList .n5 "b" = some (.int 2) ∧
    b'.attributes "d".toList .n5 "dimensions" = some (.arr [.int 8]) ∧
    ∃ r, exS3Dataset.openDataset.Does 4 exS3 r exS3 ∧ exS3Dataset.openDataset.Does 4 b' r b' := by
  intro ops b'
  have hr : ∀ (e : Event), e.change = id → (∀ k, k ≠ .put → e.error k = none) → e.size = 1000 → e.Reliable :=
    fun e h1 h2 h3 => ⟨h1, h2 _ (by decide), (fun d => by rw [h2 _ (by decide)]; exact fun h => by cases h),
      (by rw [h3]; decide)⟩
  have hv : ∀ p ∈ ops, p.1.Valid ∧ ∀ e ∈ p.2, e.Reliable := by
    intro p hp
    simp only [ops, List.mem_cons, List.not_mem_nil, or_false] at hp
    rcases hp with rfl | rfl | rfl | rfl
    · exact ⟨⟨_, rfl, by decide⟩, fun e he => by rw [List.eq_of_mem_replicate he]; exact hr _ rfl (fun _ _ => rfl) rfl⟩
    · exact ⟨⟨_, rfl, by decide⟩, fun e he => by rw [List.eq_of_mem_replicate he]; exact hr _ rfl (fun _ _ => rfl) rfl⟩
    · exact ⟨trivial, fun e he => by rw [List.mem_singleton.1 he]; exact hr _ rfl (fun _ _ => rfl) rfl⟩
    · exact ⟨⟨_, rfl, by decide⟩, fun e he => by
        rw [List.eq_of_mem_replicate he]; exact hr _ rfl (fun k hk => if_neg hk) rfl⟩
  exact ⟨rfl, hv, rfl, rfl, rfl, rfl,
    (c56_metadata rfl exS3_dataset ⟨"d/attributes.json".toList, by decide +kernel, by decide +kernel⟩ hv).2⟩

/-- The hypotheses of `c56_change` are met by the group. -/
example : ∃ b', (exS3Group.change (.write (.obj [("a", .int 1)]))).Does 11 exS3 (.ok ()) b' ∧
    b'.attributes "a/g".toList .v3 "a" = some (.int 1) ∧ b'.attributes "a/g".toList .v3 "name" = some (.str "x") := by
  obtain ⟨b', h1, h2, _⟩ := (c56_change (t := exS3Group) (op := .write (.obj [("a", .int 1)])) rfl exS3_group
    ⟨_, rfl, by decide⟩).2 rfl
  have h2 : b'.attributes "a/g".toList .v3 = _ := h2.attributes
  exact ⟨b', h1, by rw [h2]; rfl, by rw [h2]; rfl⟩

/-- **C56, negation**: a request that fails need not be reported.  If the HEAD request for `zarr.json` fails, the code
    takes the node for one of zarr v2: a call that writes attributes returns, and they are not among the attributes
    of the node. -/
theorem c56_head_counterexample :
    ∃ (t : S3Target) (b b' : Bucket) (L : Layout) (j : Json) (es : List Event), t.mode.canWrite = true ∧ t.Refers b L ∧
      j.IsObject ∧ (∀ e ∈ es, e.change = id) ∧ t.change (.write j) ⟨es, b⟩ = (some (.ok ()), ⟨[], b'⟩) ∧
      j.find "a" = some (.int 1) ∧ b'.attributes t.name L = b.attributes t.name L ∧ b.attributes t.name L "a" = none := by
  refine ⟨exS3Group, exS3, _, .v3, .obj [("a", .int 1)],
    [{}, {}, {}, { error := fun k => if k = .head then some (.other, false) else none }, {}, {}], rfl, exS3_group,
    ⟨_, rfl, by decide⟩, ?_, rfl, rfl, rfl, rfl⟩
  intro e he
  simp only [List.mem_cons, List.not_mem_nil, or_false] at he
  rcases he with rfl | rfl | rfl | rfl | rfl | rfl <;> rfl

/-- **C56, negation**: two clients that change different attributes of one node at the same time: both calls return,
    and one of the changes is lost. -/
theorem c56_race_counterexample :
    ∃ (t : S3Target) (b b' : Bucket) (L : Layout) (j j' : Json) (es es' : List Event), t.mode.canWrite = true ∧
      t.Refers b L ∧ j.IsObject ∧ j'.IsObject ∧ (∀ e ∈ es', e.Reliable) ∧
      (∀ e ∈ es, e.error = (fun _ => none) ∧ (e.change = id ∨
        (e.change = fun b => (t.change (.write j') ⟨es', b⟩).2.bucket) ∧ (t.change (.write j') ⟨es', b⟩).1 = some (.ok ()))) ∧
      t.change (.write j) ⟨es, b⟩ = (some (.ok ()), ⟨[], b'⟩) ∧
      j.find "a" = some (.int 1) ∧ j'.find "c" = some (.int 2) ∧
      b'.attributes t.name L "a" = some (.int 1) ∧ b'.attributes t.name L "c" = none := by
  refine ⟨exS3Group, exS3, _, .v3, .obj [("a", .int 1)], .obj [("c", .int 2)],
    [{}, {}, {}, {}, {},
      { change := fun b => (exS3Group.change (.write (.obj [("c", .int 2)])) ⟨List.replicate 20 {}, b⟩).2.bucket }],
    List.replicate 20 {}, rfl, exS3_group, ⟨_, rfl, by decide⟩, ⟨_, rfl, by decide⟩, ?_, ?_, rfl, rfl, rfl, rfl, rfl⟩
  · intro e he
    rw [List.eq_of_mem_replicate he]
    exact ⟨rfl, rfl, (fun d h => by cases h), by decide⟩
  · intro e he
    simp only [List.mem_cons, List.not_mem_nil, or_false] at he
    rcases he with rfl | rfl | rfl | rfl | rfl | rfl <;>
      first | exact ⟨rfl, .inl rfl⟩ | exact ⟨rfl, .inr ⟨rfl, rfl⟩⟩

end Z5
