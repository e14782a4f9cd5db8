import Verif.Spec.S3Python
import Verif.Props.S3
import Verif.Props.S3Factory

/-!
# C77: opening containers on S3 in Python
-/

namespace Z5
open Spec

/-- `S3File.__init__` behind the removal -/
def s3FileTail (h : S3Handle) (zarrFormat : Int) (f : S3PyFile) : S3M S3PyFile := do
  if ← h.exist then
    if h.mode.mustNotExist then S3M.lift (.throw .osError) else return f
  else if !h.mode.canCreate then S3M.lift (.throw .osError)
  else
    h.createFile true zarrFormat
    return f

/-- the object that is returned -/
def S3FileArgs.file (a : S3FileArgs) (mode : FileMode) : S3PyFile :=
  let separator := a.separator.getD (if a.zarrFormat = 3 then "/" else ".")
  ⟨⟨⟨a.name, mode⟩, a.zarrFormat⟩, separator, ⟨a.name, a.mode, a.zarrFormat, separator⟩⟩

theorem s3File_eq {a : S3FileArgs} {mode : FileMode} (hz : a.useZarr ≠ some false)
    (hm : pyFileModes.lookup a.mode = some mode) :
    s3File a = (do
      let e ← (⟨a.name, mode⟩ : S3Handle).exist
      if e && mode.shouldTruncate then
        S3Handle.remove ⟨a.name, mode⟩
        s3FileTail ⟨a.name, mode⟩ a.zarrFormat (a.file mode)
      else s3FileTail ⟨a.name, mode⟩ a.zarrFormat (a.file mode)) := by
  unfold s3File
  rw [if_neg hz, hm]
  rfl

theorem newDoc (b : Bucket) (name : Key) (zf : Int) :
    b.withGroup name (.of true zf) zf true = b.put (docKey name (s3FileDoc zf).1) (.doc (s3FileDoc zf).2) := by
  unfold s3FileDoc Layout.of
  by_cases h : zf = 3
  · rw [if_pos h, if_pos h]; rfl
  · rw [if_neg h, if_neg h]; rfl

theorem s3FileTail_does (h : S3Handle) (zf : Int) (f : S3PyFile) (b : Bucket) :
    (b.Exists h.name → (s3FileTail h zf f).Does 4 b (if h.mode.mustNotExist then .throw .osError else .ok f) b) ∧
    (¬ b.Exists h.name → (s3FileTail h zf f).Does 4 b (if h.mode.canCreate then .ok f else .throw .osError)
      (if h.mode.canCreate then b.put (docKey h.name (s3FileDoc zf).1) (.doc (s3FileDoc zf).2) else b)) := by
  classical
  have hx := exist_does h b
  refine ⟨fun he => ?_, fun he => ?_⟩
  · rw [decide_eq_true he] at hx
    refine hx.bind (m := 3) ?_
    show S3M.Does (if h.mode.mustNotExist then S3M.lift (.throw .osError) else S3M.lift (.ok f)) _ _ _ _
    cases h.mode.mustNotExist <;> exact (S3M.Does.lift _ b).mono (by omega)
  · rw [decide_eq_false he] at hx
    refine hx.bind (m := 3) ?_
    show S3M.Does (if !h.mode.canCreate then S3M.lift (.throw .osError) else (do
      h.createFile true zf
      S3M.lift (.ok f))) _ _ _ _
    cases hc : h.mode.canCreate with
    | false => exact (S3M.Does.lift _ b).mono (by omega)
    | true =>
      have := (c57_file (h := h) (isZarr := true) (zarrFormat := zf) (b := b)).2 hc he
      have h1 := this.1
      rw [newDoc] at h1
      exact h1.bind_lift rfl

theorem s3FileTail_cases (h : S3Handle) (zf : Int) (f : S3PyFile) (b : Bucket) :
    (b.Exists h.name → h.mode.mustNotExist = true → (s3FileTail h zf f).Does 4 b (.throw .osError) b) ∧
    (b.Exists h.name → h.mode.mustNotExist = false → (s3FileTail h zf f).Does 4 b (.ok f) b) ∧
    (¬ b.Exists h.name → h.mode.canCreate = false → (s3FileTail h zf f).Does 4 b (.throw .osError) b) ∧
    (¬ b.Exists h.name → h.mode.canCreate = true → (s3FileTail h zf f).Does 4 b (.ok f)
      (b.put (docKey h.name (s3FileDoc zf).1) (.doc (s3FileDoc zf).2))) := by
  obtain ⟨h1, h2⟩ := s3FileTail_does h zf f b
  refine ⟨fun he hm => ?_, fun he hm => ?_, fun he hm => ?_, fun he hm => ?_⟩
  · have := h1 he
    rwa [hm, if_pos rfl] at this
  · have := h1 he
    rwa [hm, if_neg (by decide)] at this
  · have := h2 he
    rwa [hm, if_neg (by decide), if_neg (by decide)] at this
  · have := h2 he
    rwa [hm, if_pos rfl, if_pos rfl] at this

theorem s3File_does {a : S3FileArgs} {mode : FileMode} {b : Bucket} {r : Res S3PyFile} {b' : Bucket}
    (hz : a.useZarr ≠ some false) (hm : pyFileModes.lookup a.mode = some mode)
    (ht : b.Exists a.name → mode.shouldTruncate = false)
    (h : (s3FileTail ⟨a.name, mode⟩ a.zarrFormat (a.file mode)).Does 4 b r b') : (s3File a).Does 5 b r b' := by
  classical
  rw [s3File_eq hz hm]
  refine (exist_does ⟨a.name, mode⟩ b).bind (m := 4) ?_
  have : (decide (b.Exists a.name) && mode.shouldTruncate) = false := by
    by_cases he : b.Exists a.name
    · rw [ht he, Bool.and_false]
    · rw [decide_eq_false he, Bool.false_and]
  show S3M.Does (if (decide (b.Exists a.name) && mode.shouldTruncate) = true then _ else _) _ _ _ _
  rw [this]
  exact h

theorem file_describes {a : S3FileArgs} {mode : FileMode} (hm : pyFileModes.lookup a.mode = some mode) :
    a.Describes (a.file mode) := by
  refine ⟨rfl, ?_, rfl, fun s hs => ?_, fun hs h3 => ?_, fun hs h3 => ?_⟩
  · show mode.canWrite = true ↔ _
    have : a.mode = "r" ∨ a.mode ≠ "r" := Classical.em _
    rcases this with h | h
    · rw [h] at hm
      cases hm
      simp [h]; decide
    · refine ⟨fun _ => h, fun _ => ?_⟩
      cases mode <;> first | rfl | skip
      exfalso
      unfold pyFileModes at hm
      simp only [List.lookup] at hm
      repeat' (split at hm)
      all_goals first | cases hm | skip
      rename_i h1 _ h2
      exact h (by simpa using h2)
  · show a.separator.getD _ = s
    rw [hs]; rfl
  · show a.separator.getD _ = _
    rw [hs, if_pos h3]; rfl
  · show a.separator.getD _ = _
    rw [hs, if_neg h3]; rfl

/-- **C77**: what opening a container does, unless it truncates one.  What counts is whether there are objects below
    the name.  Nothing is changed but by the creation of a container, which writes the one document of a group. -/
theorem c77_open {a : S3FileArgs} {b : Bucket} (hz : a.useZarr ≠ some false) :
    (a.mode ∈ ["r", "r+"] → ¬ b.Exists a.name → (s3File a).Does 5 b (.throw .osError) b) ∧
    (a.mode ∈ ["w-", "x"] → b.Exists a.name → (s3File a).Does 5 b (.throw .osError) b) ∧
    (a.mode ∈ ["r", "r+", "a"] → b.Exists a.name → ∃ f, a.Describes f ∧ (s3File a).Does 5 b (.ok f) b) ∧
    (a.mode ∈ ["w", "w-", "x", "a"] → ¬ b.Exists a.name → ∃ f, a.Describes f ∧ (s3File a).Does 5 b (.ok f)
      (b.put (docKey a.name (s3FileDoc a.zarrFormat).1) (.doc (s3FileDoc a.zarrFormat).2))) := by
  refine ⟨fun hm he => ?_, fun hm he => ?_, fun hm he => ?_, fun hm he => ?_⟩
  · simp only [List.mem_cons, List.not_mem_nil, or_false] at hm
    rcases hm with hm | hm
    · exact s3File_does (mode := .r) hz (by rw [hm]; decide) (fun _ => by decide) ((s3FileTail_cases ⟨a.name, .r⟩ a.zarrFormat (a.file .r) b).2.2.1 he (by dsimp only; decide))
    · exact s3File_does (mode := .rp) hz (by rw [hm]; decide) (fun _ => by decide) ((s3FileTail_cases ⟨a.name, .rp⟩ a.zarrFormat (a.file .rp) b).2.2.1 he (by dsimp only; decide))
  · simp only [List.mem_cons, List.not_mem_nil, or_false] at hm
    have : pyFileModes.lookup a.mode = some .wm := by rcases hm with hm | hm <;> (rw [hm]; decide)
    exact s3File_does hz this (fun _ => by decide) ((s3FileTail_cases ⟨a.name, .wm⟩ a.zarrFormat (a.file .wm) b).1 he (by dsimp only; decide))
  · simp only [List.mem_cons, List.not_mem_nil, or_false] at hm
    rcases hm with hm | hm | hm
    · have hl : pyFileModes.lookup a.mode = some .r := by rw [hm]; decide
      exact ⟨_, file_describes hl, s3File_does hz hl (fun _ => by decide) ((s3FileTail_cases ⟨a.name, .r⟩ a.zarrFormat (a.file .r) b).2.1 he (by dsimp only; decide))⟩
    · have hl : pyFileModes.lookup a.mode = some .rp := by rw [hm]; decide
      exact ⟨_, file_describes hl, s3File_does hz hl (fun _ => by decide) ((s3FileTail_cases ⟨a.name, .rp⟩ a.zarrFormat (a.file .rp) b).2.1 he (by dsimp only; decide))⟩
    · have hl : pyFileModes.lookup a.mode = some .a := by rw [hm]; decide
      exact ⟨_, file_describes hl, s3File_does hz hl (fun _ => by decide) ((s3FileTail_cases ⟨a.name, .a⟩ a.zarrFormat (a.file .a) b).2.1 he (by dsimp only; decide))⟩
  · simp only [List.mem_cons, List.not_mem_nil, or_false] at hm
    rcases hm with hm | hm | hm | hm
    · have hl : pyFileModes.lookup a.mode = some .w := by rw [hm]; decide
      exact ⟨_, file_describes hl, s3File_does hz hl (fun h => absurd h he) ((s3FileTail_cases ⟨a.name, .w⟩ a.zarrFormat (a.file .w) b).2.2.2 he (by dsimp only; decide))⟩
    · have hl : pyFileModes.lookup a.mode = some .wm := by rw [hm]; decide
      exact ⟨_, file_describes hl, s3File_does hz hl (fun h => absurd h he) ((s3FileTail_cases ⟨a.name, .wm⟩ a.zarrFormat (a.file .wm) b).2.2.2 he (by dsimp only; decide))⟩
    · have hl : pyFileModes.lookup a.mode = some .wm := by rw [hm]; decide
      exact ⟨_, file_describes hl, s3File_does hz hl (fun h => absurd h he) ((s3FileTail_cases ⟨a.name, .wm⟩ a.zarrFormat (a.file .wm) b).2.2.2 he (by dsimp only; decide))⟩
    · have hl : pyFileModes.lookup a.mode = some .a := by rw [hm]; decide
      exact ⟨_, file_describes hl, s3File_does hz hl (fun h => absurd h he) ((s3FileTail_cases ⟨a.name, .a⟩ a.zarrFormat (a.file .a) b).2.2.2 he (by dsimp only; decide))⟩

/-- **C77**: a new container is one of zarr in the wanted version, without attributes. -/
theorem c77_created {a : S3FileArgs} {b : Bucket} {mode : FileMode} (he : ¬ b.Exists a.name) :
    let b' := b.put (docKey a.name (s3FileDoc a.zarrFormat).1) (.doc (s3FileDoc a.zarrFormat).2)
    let L := Layout.of true a.zarrFormat
    b'.IsZarr a.name ∧ (S3Target.file ⟨a.name, mode⟩).Refers b' L ∧ ∀ k, b'.attributes a.name L k = none := by
  intro b' L
  obtain ⟨h1, h2, h3⟩ := withGroup_node (L := L) (f := a.zarrFormat) (isFile := true) he
  have hb : b.withGroup a.name L a.zarrFormat true = b' := newDoc b a.name a.zarrFormat
  rw [hb] at h1 h2 h3
  have hL : L.isZarr = true := by
    show (Layout.of true a.zarrFormat).isZarr = _
    by_cases hf : a.zarrFormat = 3 <;> simp [Layout.of, hf, Layout.isZarr]
  refine ⟨h2.1 hL, ⟨h1, fun _ => h2, (fun z e => by cases e), (fun d e => by cases e)⟩, fun k => ?_⟩
  rw [h3, if_neg]
  rintro ⟨h, -⟩
  rw [h] at hL
  cases hL

/-- **C77**: N5 is refused, and modes that do not exist; nothing is asked of the service. -/
theorem c77_refused {a : S3FileArgs} (w : World) :
    (a.useZarr = some false → s3File a w = (some (.throw .runtimeError), w)) ∧
    (a.useZarr ≠ some false → a.mode ∉ ["r", "r+", "w", "w-", "x", "a"] → s3File a w = (some (.throw .keyError), w)) := by
  refine ⟨fun h => ?_, fun h hm => ?_⟩
  · unfold s3File
    rw [if_pos h]
    rfl
  · unfold s3File
    have : pyFileModes.lookup a.mode = none := by
      simp only [List.mem_cons, List.not_mem_nil, or_false, not_or] at hm
      obtain ⟨h1, h2, h3, h4, h5, h6⟩ := hm
      simp only [pyFileModes, List.lookup, beq_false_of_ne h1, beq_false_of_ne h2, beq_false_of_ne h3,
        beq_false_of_ne h4, beq_false_of_ne h5, beq_false_of_ne h6]
    rw [if_neg h, this]
    rfl

/-! ### Truncation -/

theorem exist_quiet {h : S3Handle} {w w1 : World} {e : Bool} (hes : ∀ e ∈ w.events, e.Reliable)
    (h1 : h.exist w = (some (.ok e), w1)) : (e = true ↔ w.bucket.Exists h.name) ∧ w1.bucket = w.bucket ∧ w1.events <:+ w.events := by
  classical
  rcases exist_does h w.bucket w.events hes with ⟨es', h2, _, h3⟩ | ⟨es', b'', _, h3, _⟩ | ⟨_, h3⟩
  · have h3' : h.exist w = _ := h3
    rw [h1] at h3'
    cases h3'
    exact ⟨decide_eq_true_iff, rfl, h2⟩
  · have h3' : h.exist w = _ := h3
    rw [h1] at h3'
    cases h3'
  · have h3' : h.exist w = _ := h3
    rw [h1] at h3'
    cases h3'

theorem remove_suffix {h : S3Handle} {w w1 : World} {r : Option (Res Unit)} (hr : h.remove w = (r, w1)) :
    w1.events <:+ w.events := by
  have : (h.remove).Keeps w.events fun _ => True := by
    unfold S3Handle.remove
    split
    · exact .lift _ _ _
    · exact (listAllKeys_keeps fun _ _ _ _ => trivial).bind fun _ => deleteFrom_keeps (fun _ _ _ _ => trivial) (fun _ _ _ _ => trivial) 0
  have := (this w List.suffix_rfl trivial).1
  rwa [hr] at this

/-- **C77**: a container that has been truncated holds nothing but the document of a new one; everything outside of it is as it was. -/
theorem c77_truncated {a : S3FileArgs} {w w' : World} {f : S3PyFile} (hz : a.useZarr ≠ some false) (hm : a.mode = "w")
    (hw : World.Ok w) (hes : ∀ e ∈ w.events, e.Reliable ∧ e.failed = []) (h : s3File a w = (some (.ok f), w')) :
    a.Describes f ∧ ∀ k, w'.bucket.get k =
      if k = docKey a.name (s3FileDoc a.zarrFormat).1 then some (.doc (s3FileDoc a.zarrFormat).2)
      else if dirPrefix a.name <+: k then none else w.bucket.get k := by
  have hl : pyFileModes.lookup a.mode = some .w := by rw [hm]; decide
  have key : ∀ w1 : World, w1.events <:+ w.events →
      (∀ k, w1.bucket.get k = if dirPrefix a.name <+: k then none else w.bucket.get k) →
      s3FileTail ⟨a.name, .w⟩ a.zarrFormat (a.file .w) w1 = (some (.ok f), w') →
      a.Describes f ∧ ∀ k, w'.bucket.get k =
        if k = docKey a.name (s3FileDoc a.zarrFormat).1 then some (.doc (s3FileDoc a.zarrFormat).2)
        else if dirPrefix a.name <+: k then none else w.bucket.get k := by
    intro w1 hs hg ht
    have hne : ¬ w1.bucket.Exists a.name := by
      rintro ⟨k, hk, hp⟩
      have := hg k
      rw [if_pos hp, get_none] at this
      exact this hk
    obtain ⟨h1, h2⟩ := ((s3FileTail_cases ⟨a.name, .w⟩ a.zarrFormat (a.file .w) w1.bucket).2.2.2 hne (by dsimp only; decide)).ok
      (fun e he => (hes e (hs.subset he)).1) (show s3FileTail _ _ _ ⟨w1.events, w1.bucket⟩ = _ from ht)
    have h1' : (Res.ok (a.file .w) : Res S3PyFile) = .ok f := h1
    cases h1'
    refine ⟨file_describes hl, fun k => ?_⟩
    have h2' : w'.bucket = w1.bucket.put (docKey a.name (s3FileDoc a.zarrFormat).1) (.doc (s3FileDoc a.zarrFormat).2) := h2
    rw [h2']
    by_cases hk : k = docKey a.name (s3FileDoc a.zarrFormat).1
    · rw [if_pos hk, hk, get_put_self]
    · rw [if_neg hk, get_put_ne hk, hg]
  rw [s3File_eq hz hl] at h
  obtain ⟨e, w1, h1, h2⟩ := S3M.bind_ok h
  obtain ⟨he, hb, hs⟩ := exist_quiet (fun e he => (hes e he).1) h1
  cases e with
  | false =>
    refine key w1 hs (fun k => ?_) h2
    rw [hb]
    split
    · rename_i hk
      exact not_exists_get (fun hx => by cases he.2 hx) hk
    · rfl
  | true =>
    have h2' : (S3Handle.remove ⟨a.name, .w⟩ >>= fun _ => s3FileTail ⟨a.name, .w⟩ a.zarrFormat (a.file .w)) w1 = (some (.ok f), w') := h2
    obtain ⟨u, w2, h3, h4⟩ := S3M.bind_ok h2'
    have hw1 : World.Ok w1 := ⟨hb ▸ hw.1, fun e he => hw.2 e (hs.subset he)⟩
    refine key w2 ((remove_suffix h3).trans hs) (fun k => ?_) h4
    rw [c50_remove_exact hw1 (fun e he => (hes e (hs.subset he)).1.1) (fun e he => (hes e (hs.subset he)).2) h3 k, hb]

/-- **C77**: and if the service is healthy, it is. -/
theorem c77_truncate_ends {a : S3FileArgs} {w : World} (hz : a.useZarr ≠ some false) (hm : a.mode = "w")
    (hw : w.bucket.WF) (hh : Healthy w.events) (hlen : 2 * w.bucket.length + 5 < w.events.length) :
    ∃ f w', s3File a w = (some (.ok f), w') := by
  have hes : ∀ e ∈ w.events, e.Reliable ∧ e.failed = [] := fun e he =>
    ⟨⟨(hh e he).1, (hh e he).2.1 _, (fun d h => by rw [(hh e he).2.1] at h; cases h), (hh e he).2.2.1⟩, (hh e he).2.2.2⟩
  have hl : pyFileModes.lookup a.mode = some .w := by rw [hm]; decide
  have hok : World.Ok w := ⟨hw, fun e he b hb => by rw [(hh e he).1]; exact hb⟩
  classical
  -- what `Does` gives in a healthy world
  have ends : ∀ {α : Type} {x : S3M α} {n : Nat} {r : Res α} {w1 : World} {b' : Bucket}, w1.events <:+ w.events →
      x.Does n w1.bucket r b' → n ≤ w1.events.length →
      ∃ es', es' <:+ w1.events ∧ w1.events.length ≤ n + es'.length ∧ x w1 = (some r, ⟨es', b'⟩) := by
    intro α x n r w1 b' hs hd hn
    rcases hd w1.events (fun e he => (hes e (hs.subset he)).1) with ⟨es', h1, h2, h3⟩ | ⟨es', b'', _, _, _, e, he, k, hk⟩ | ⟨h1, _⟩
    · exact ⟨es', h1, h2, h3⟩
    · exact absurd ((hh e (hs.subset he)).2.1 k) hk
    · omega
  have hlast : ∀ w1 : World, w1.events <:+ w.events → 4 ≤ w1.events.length → ¬ w1.bucket.Exists a.name →
      ∃ w', s3FileTail ⟨a.name, .w⟩ a.zarrFormat (a.file .w) w1 = (some (.ok (a.file .w)), w') := by
    intro w1 hs hn hne
    obtain ⟨es', _, _, h⟩ := ends hs ((s3FileTail_cases ⟨a.name, .w⟩ a.zarrFormat (a.file .w) w1.bucket).2.2.2 hne
      (by dsimp only; decide)) hn
    exact ⟨_, h⟩
  obtain ⟨es1, h1, h2, h3⟩ := ends (w1 := w) List.suffix_rfl (exist_does ⟨a.name, .w⟩ w.bucket) (by omega)
  rw [s3File_eq hz hl, S3M.run_bind h3]
  by_cases he : w.bucket.Exists a.name
  · have hde : decide (w.bucket.Exists a.name) = true := decide_eq_true he
    show ∃ f w', (if (decide (w.bucket.Exists a.name) && FileMode.shouldTruncate .w) = true then
      (do S3Handle.remove ⟨a.name, .w⟩; s3FileTail ⟨a.name, .w⟩ a.zarrFormat (a.file .w))
      else s3FileTail ⟨a.name, .w⟩ a.zarrFormat (a.file .w)) ⟨es1, w.bucket⟩ = _
    rw [hde, show FileMode.shouldTruncate .w = true by decide]
    obtain ⟨w2, h4, h5⟩ := c50_remove_ends (h := ⟨a.name, .w⟩) (by dsimp only; decide) (w := ⟨es1, w.bucket⟩) hw
      (fun e he => hh e (h1.subset he)) (by dsimp only; omega)
    have h5' : es1.length ≤ w2.events.length + 2 * w.bucket.length + 1 := h5
    obtain ⟨w', hw'⟩ := hlast w2 ((remove_suffix h4).trans h1) (by omega) (by
      rintro ⟨k, hk, hp⟩
      have := c50_remove_exact (w := ⟨es1, w.bucket⟩) ⟨hw, fun e he => hok.2 e (h1.subset he)⟩ (fun e he => (hh e (h1.subset he)).1)
        (fun e he => (hh e (h1.subset he)).2.2.2) h4 k
      rw [if_pos hp, get_none] at this
      exact this hk)
    refine ⟨a.file .w, w', ?_⟩
    show (S3Handle.remove ⟨a.name, .w⟩ >>= fun _ => s3FileTail ⟨a.name, .w⟩ a.zarrFormat (a.file .w)) ⟨es1, w.bucket⟩ = _
    rw [S3M.run_bind h4]
    exact hw'
  · have hde : decide (w.bucket.Exists a.name) = false := decide_eq_false he
    show ∃ f w', (if (decide (w.bucket.Exists a.name) && FileMode.shouldTruncate .w) = true then
      (do S3Handle.remove ⟨a.name, .w⟩; s3FileTail ⟨a.name, .w⟩ a.zarrFormat (a.file .w))
      else s3FileTail ⟨a.name, .w⟩ a.zarrFormat (a.file .w)) ⟨es1, w.bucket⟩ = _
    rw [hde]
    obtain ⟨w', hw'⟩ := hlast ⟨es1, w.bucket⟩ h1 (by dsimp only; omega) he
    exact ⟨_, w', hw'⟩

/-! ### Whatever happens -/

theorem s3Read_keeps {base : Key} {n : String} {es : List Event} {P : Bucket → Prop}
    (hc : ∀ e ∈ es, ∀ b, P b → P (e.change b)) : (s3Read base n).Keeps es P := by
  unfold s3Read getObject
  refine S3M.Keeps.bind (S3M.Keeps.bind (request_keeps hc fun e _ b hb => ?_) fun r => ?_) fun o => ?_
  · unfold getReq
    split <;> exact hb
  · rcases r with e | o
    · cases e
      · exact .pure _ _ _
      · exact .lift _ _ _
    · exact .pure _ _ _
  · rcases o with _ | (j | (_ | ⟨x, xs⟩))
    all_goals first | exact .pure _ _ _ | exact .lift _ _ _

theorem exist_keeps {h : S3Handle} {es : List Event} {P : Bucket → Prop}
    (hc : ∀ e ∈ es, ∀ b, P b → P (e.change b)) : h.exist.Keeps es P := by
  unfold S3Handle.exist anyObjectWithPrefix
  refine S3M.Keeps.bind (request_keeps hc fun e _ b hb => ?_) fun r => ?_
  · rw [listReq_bucket]; exact hb
  · cases r with
    | error _ => exact .lift _ _ _
    | ok _ => exact .pure _ _ _

theorem put_keeps {k : Key} {o : S3Obj} {es : List Event} {P : Bucket → Prop}
    (hc : ∀ e ∈ es, ∀ b, P b → P (e.change b)) (hp : ∀ b, P b → P (b.put k o)) : (putObject k o).Keeps es P := by
  unfold putObject
  refine S3M.Keeps.bind (request_keeps hc fun e _ b hb => hp b hb) fun r => ?_
  cases r with
  | error _ => exact .lift _ _ _
  | ok _ => exact .pure _ _ _

theorem createFile_keeps {h : S3Handle} {zf : Int} {es : List Event} {P : Bucket → Prop}
    (hc : ∀ e ∈ es, ∀ b, P b → P (e.change b)) (hp : ∀ b n o, P b → P (b.put (docKey h.name n) o)) :
    (h.createFile true zf).Keeps es P := by
  unfold S3Handle.createFile S3Handle.createAsFile
  refine S3M.Keeps.bind ?_ fun _ => ?_
  · split
    · exact .lift _ _ _
    · refine S3M.Keeps.bind (exist_keeps hc) fun e => ?_
      cases e
      · exact .pure _ _ _
      · exact .lift _ _ _
  · unfold GenericS3.writeFileMetadata
    split
    · unfold GenericS3.writeV3GroupMetadata
      refine S3M.Keeps.bind (s3Read_keeps hc) fun _ => .bind (.lift _ _ _) fun _ => .bind (.lift _ _ _) fun j => ?_
      dsimp only
      split
      · exact S3M.Keeps.bind (.lift _ _ _) fun _ => put_keeps hc fun b hb => hp b _ _ hb
      · exact S3M.Keeps.bind (.pure _ _ _) fun _ => put_keeps hc fun b hb => hp b _ _ hb
    · exact put_keeps hc fun b hb => hp b _ _ hb

theorem s3FileTail_keeps {h : S3Handle} {zf : Int} {f : S3PyFile} {es : List Event} {P : Bucket → Prop}
    (hc : ∀ e ∈ es, ∀ b, P b → P (e.change b)) (hp : ∀ b n o, P b → P (b.put (docKey h.name n) o)) :
    (s3FileTail h zf f).Keeps es P := by
  unfold s3FileTail
  refine S3M.Keeps.bind (exist_keeps hc) fun e => ?_
  cases e
  · show S3M.Keeps (if (!h.mode.canCreate) = true then _ else _) _ _
    split
    · exact .lift _ _ _
    · exact (createFile_keeps hc hp).bind fun _ => .pure _ _ _
  · show S3M.Keeps (if h.mode.mustNotExist = true then _ else _) _ _
    split
    · exact .lift _ _ _
    · exact .pure _ _ _

/-- **C77**: in every mode, and however the opening ends, objects that are not below the name of the container are left
    alone. -/
theorem c77_outside (a : S3FileArgs) {w : World} (hw : World.Ok w) {k : Key} (hk : ¬ dirPrefix a.name <+: k)
    (hu : Untouched k w) : (s3File a w).2.bucket.get k = w.bucket.get k := by
  by_cases hz : a.useZarr = some false
  · rw [(c77_refused w).1 hz]
  cases hm : pyFileModes.lookup a.mode with
  | none =>
    unfold s3File
    rw [if_neg hz, hm]
    rfl
  | some mode =>
    rw [s3File_eq hz hm]
    have hput : ∀ (b : Bucket) n o, b.get k = w.bucket.get k → (b.put (docKey a.name n) o).get k = w.bucket.get k :=
      fun b n o hb => by
        have hne : k ≠ docKey a.name n := fun e => hk (by rw [e]; exact dirPrefix_docKey _ _)
        rw [get_put_ne hne]; exact hb
    have htail : ∀ w1 : World, w1.events <:+ w.events → w1.bucket.get k = w.bucket.get k →
        (s3FileTail ⟨a.name, mode⟩ a.zarrFormat (a.file mode) w1).2.bucket.get k = w.bucket.get k := fun w1 hs hg =>
      (s3FileTail_keeps (es := w.events) (P := fun b => b.get k = w.bucket.get k)
        (fun e he b hb => (hu e he b).trans hb) hput w1 hs hg).2
    have h1 := exist_keeps (h := ⟨a.name, mode⟩) (es := w.events) (P := fun b => b.WF ∧ b.get k = w.bucket.get k)
      (fun e he b hb => ⟨hw.2 e he b hb.1, (hu e he b).trans hb.2⟩) w List.suffix_rfl ⟨hw.1, rfl⟩
    rw [S3M.bind_eq]
    rcases hx : S3Handle.exist ⟨a.name, mode⟩ w with ⟨_ | r, w1⟩
    · rw [hx] at h1; exact h1.2.2
    · rw [hx] at h1
      obtain ⟨hs, hwf, hg⟩ := h1
      cases r with
      | throw _ => exact hg
      | ub => exact hg
      | ok e =>
        show ((if (e && mode.shouldTruncate) = true then _ else _ : S3M S3PyFile) w1).2.bucket.get k = _
        split
        · have h2 := c50_others_kept ⟨a.name, mode⟩ (w := w1) ⟨hwf, fun e he => hw.2 e (hs.subset he)⟩ hk
            (fun e he => hu e (hs.subset he))
          rw [S3M.bind_eq]
          rcases hr : S3Handle.remove ⟨a.name, mode⟩ w1 with ⟨_ | r, w2⟩
          · rw [hr] at h2; exact h2.trans hg
          · rw [hr] at h2
            cases r with
            | throw _ => exact h2.trans hg
            | ub => exact h2.trans hg
            | ok _ => exact htail w2 ((remove_suffix hr).trans hs) (h2.trans hg)
        · exact htail w1 hs hg

/-- **C77**: a container is lost object by object when it is truncated; until it has lost all of them, there is no
    document of a new one.  (However the call ends, and also if the service fails to delete some objects.) -/
theorem c77_truncate_interrupted (a : S3FileArgs) {w : World} (hm : a.mode = "w") (hw : World.Ok w)
    (hes : ∀ e ∈ w.events, e.Reliable) :
    (∀ k, (s3File a w).2.bucket.get k = w.bucket.get k ∨
      dirPrefix a.name <+: k ∧ (s3File a w).2.bucket.get k = none) ∨
    (∀ k, (s3File a w).2.bucket.get k =
      if k = docKey a.name (s3FileDoc a.zarrFormat).1 then some (.doc (s3FileDoc a.zarrFormat).2)
      else if dirPrefix a.name <+: k then none else w.bucket.get k) := by
  by_cases hz : a.useZarr = some false
  · rw [(c77_refused w).1 hz]
    exact .inl fun k => .inl rfl
  have hl : pyFileModes.lookup a.mode = some .w := by rw [hm]; decide
  rw [s3File_eq hz hl]
  -- what is left of the container
  let P : Bucket → Prop := fun b => ∀ k, b.get k = w.bucket.get k ∨ dirPrefix a.name <+: k ∧ b.get k = none
  have htail : ∀ w1 : World, w1.events <:+ w.events → P w1.bucket →
      P (s3FileTail ⟨a.name, .w⟩ a.zarrFormat (a.file .w) w1).2.bucket ∨
      ∀ k, (s3FileTail ⟨a.name, .w⟩ a.zarrFormat (a.file .w) w1).2.bucket.get k =
        if k = docKey a.name (s3FileDoc a.zarrFormat).1 then some (.doc (s3FileDoc a.zarrFormat).2)
        else if dirPrefix a.name <+: k then none else w.bucket.get k := by
    intro w1 hs hP
    have hr1 : ∀ e ∈ w1.events, e.Reliable := fun e he => hes e (hs.subset he)
    by_cases hx : w1.bucket.Exists a.name
    · have h2 := ((s3FileTail_cases ⟨a.name, .w⟩ a.zarrFormat (a.file .w) w1.bucket).2.1 hx (by dsimp only; decide)).bucket hr1
      have h2' : (s3FileTail ⟨a.name, .w⟩ a.zarrFormat (a.file .w) w1).2.bucket = w1.bucket := h2.elim id id
      rw [h2']
      exact .inl hP
    · have h2 := ((s3FileTail_cases ⟨a.name, .w⟩ a.zarrFormat (a.file .w) w1.bucket).2.2.2 hx (by dsimp only; decide)).bucket hr1
      rcases h2 with h2 | h2
      · have h2' : (s3FileTail ⟨a.name, .w⟩ a.zarrFormat (a.file .w) w1).2.bucket = w1.bucket := h2
        rw [h2']
        exact .inl hP
      · have h2' : (s3FileTail ⟨a.name, .w⟩ a.zarrFormat (a.file .w) w1).2.bucket
          = w1.bucket.put (docKey a.name (s3FileDoc a.zarrFormat).1) (.doc (s3FileDoc a.zarrFormat).2) := h2
        rw [h2']
        refine .inr fun k => ?_
        split
        · rename_i hk
          rw [hk, get_put_self]
        · rename_i hk
          rw [get_put_ne hk]
          split
          · rename_i hp
            exact not_exists_get hx hp
          · rename_i hp
            exact (hP k).resolve_right fun h => hp h.1
  have hc : ∀ e ∈ w.events, ∀ b, P b → P (e.change b) := fun e he b hb => by rw [(hes e he).1]; exact hb
  have h1 := exist_keeps (h := ⟨a.name, .w⟩) (es := w.events) (P := fun b => b.WF ∧ P b)
    (fun e he b hb => ⟨hw.2 e he b hb.1, hc e he b hb.2⟩) w List.suffix_rfl ⟨hw.1, fun k => .inl rfl⟩
  rw [S3M.bind_eq]
  rcases hx : S3Handle.exist ⟨a.name, .w⟩ w with ⟨_ | r, w1⟩
  · rw [hx] at h1; exact .inl h1.2.2
  · rw [hx] at h1
    obtain ⟨hs, hwf, hP⟩ := h1
    cases r with
    | throw _ => exact .inl hP
    | ub => exact .inl hP
    | ok e =>
      have hw1 : World.Ok w1 := ⟨hwf, fun e he => hw.2 e (hs.subset he)⟩
      cases e with
      | false => exact htail w1 hs hP
      | true =>
        show P ((S3Handle.remove ⟨a.name, .w⟩ >>= fun _ => s3FileTail ⟨a.name, .w⟩ a.zarrFormat (a.file .w)) w1).2.bucket ∨
          ∀ k, ((S3Handle.remove ⟨a.name, .w⟩ >>= fun _ => s3FileTail ⟨a.name, .w⟩ a.zarrFormat (a.file .w)) w1).2.bucket.get k = _
        have h2 : P (S3Handle.remove ⟨a.name, .w⟩ w1).2.bucket := by
          intro k
          by_cases hp : dirPrefix a.name <+: k
          · have hk := hP k
            have : (S3Handle.remove ⟨a.name, .w⟩).Keeps w1.events fun b => b.get k = w1.bucket.get k ∨ b.get k = none := by
              unfold S3Handle.remove
              split
              · exact .lift _ _ _
              · have hc' : ∀ e ∈ w1.events, ∀ b : Bucket, (b.get k = w1.bucket.get k ∨ b.get k = none) →
                    ((e.change b).get k = w1.bucket.get k ∨ (e.change b).get k = none) :=
                  fun e he b hb => by rw [(hes e (hs.subset he)).1]; exact hb
                refine (listAllKeys_keeps hc').bind fun _ => deleteFrom_keeps hc' (fun ks _ b hb => ?_) 0
                by_cases hks : k ∈ ks
                · right
                  rw [get_none]
                  intro h
                  exact (mem_keys_erase.1 h).2 hks
                · rw [get_erase hks]; exact hb
            rcases (this w1 List.suffix_rfl (.inl rfl)).2 with h | h
            · rw [h]; exact hk
            · exact .inr ⟨hp, h⟩
          · left
            rw [c50_others_kept ⟨a.name, .w⟩ hw1 hp (fun e he b => by rw [(hes e (hs.subset he)).1]; rfl)]
            exact (hP k).resolve_right fun h => hp h.1
        rw [S3M.bind_eq]
        rcases hr : S3Handle.remove ⟨a.name, .w⟩ w1 with ⟨_ | r, w2⟩
        · rw [hr] at h2; exact .inl h2
        · rw [hr] at h2
          cases r with
          | throw _ => exact .inl h2
          | ub => exact .inl h2
          | ok _ => exact htail w2 ((remove_suffix hr).trans hs) h2

/-! ### Pickling -/

theorem s3File_result {a : S3FileArgs} {w w' : World} {f : S3PyFile} (h : s3File a w = (some (.ok f), w')) :
    ∃ mode, pyFileModes.lookup a.mode = some mode ∧ f = a.file mode := by
  by_cases hz : a.useZarr = some false
  · rw [(c77_refused w).1 hz] at h; cases h
  cases hm : pyFileModes.lookup a.mode with
  | none =>
    unfold s3File at h
    rw [if_neg hz, hm] at h
    cases h
  | some mode =>
    refine ⟨mode, rfl, ?_⟩
    have htail : ∀ w1, s3FileTail ⟨a.name, mode⟩ a.zarrFormat (a.file mode) w1 = (some (.ok f), w') → f = a.file mode := by
      intro w1 h1
      unfold s3FileTail at h1
      obtain ⟨e, w2, _, h2⟩ := S3M.bind_ok h1
      cases e with
      | true =>
        have h2' : (if mode.mustNotExist = true then S3M.lift (.throw .osError) else S3M.lift (.ok (a.file mode))) w2 = (some (.ok f), w') := h2
        split at h2'
        · cases h2'
        · cases h2'; rfl
      | false =>
        have h2' : (if (!mode.canCreate) = true then S3M.lift (.throw .osError) else
          (S3Handle.createFile ⟨a.name, mode⟩ true a.zarrFormat >>= fun _ => S3M.lift (.ok (a.file mode)))) w2 = (some (.ok f), w') := h2
        split at h2'
        · cases h2'
        · obtain ⟨u, w3, _, h3⟩ := S3M.bind_ok h2'
          cases h3; rfl
    rw [s3File_eq hz hm] at h
    obtain ⟨e, w1, _, h2⟩ := S3M.bind_ok h
    have h2' : (if (e && mode.shouldTruncate) = true then
      (S3Handle.remove ⟨a.name, mode⟩ >>= fun _ => s3FileTail ⟨a.name, mode⟩ a.zarrFormat (a.file mode))
      else s3FileTail ⟨a.name, mode⟩ a.zarrFormat (a.file mode)) w1 = (some (.ok f), w') := h2
    split at h2'
    · obtain ⟨u, w2, _, h3⟩ := S3M.bind_ok h2'
      exact htail w2 h3
    · exact htail w1 h2'

/-- **C77**: a container that has been pickled is unpickled as the same one, in every mode; nothing is asked of the
    service, so that nothing is created or truncated. -/
theorem c77_pickle {a : S3FileArgs} {w w' : World} {f : S3PyFile} (h : s3File a w = (some (.ok f), w')) :
    s3Unpickle f.initArgs = .ok f := by
  obtain ⟨mode, hm, rfl⟩ := s3File_result h
  unfold s3Unpickle S3FileArgs.file
  dsimp only
  rw [hm]

/-! ### What a user might not expect -/

/-- **C77, negation**: with `use_zarr_format=True` a container of N5 is opened all the same, as is every prefix with
    objects below it. -/
theorem c77_n5_counterexample : ∃ (a : S3FileArgs) (w w' : World) (f : S3PyFile), (∀ e ∈ w.events, e.Reliable) ∧
    a.useZarr = some true ∧ ¬ w.bucket.IsZarr a.name ∧ s3File a w = (some (.ok f), w') := by
  refine ⟨{ name := "f".toList, mode := "r+", useZarr := some true }, ⟨List.replicate 2 {}, exS3N5⟩, ⟨[], exS3N5⟩,
    S3FileArgs.file { name := "f".toList, mode := "r+", useZarr := some true } .rp, exS3_calm 2, rfl, ?_, rfl⟩
  rintro ⟨m, hm, h⟩
  simp only [List.mem_cons, List.not_mem_nil, or_false] at hm
  have : ∀ k ∈ exS3N5.keys, k = "f/attributes.json".toList := fun k hk => by
    simpa [exS3N5, Bucket.keys] using hk
  rcases h with h | ⟨k, h1, h2⟩
  · have := this _ h
    rcases hm with rfl | rfl <;> exact absurd this (by decide +kernel)
  · have := this _ h1
    subst this
    rcases hm with rfl | rfl <;> exact absurd h2 (by decide +kernel)

/-- A container with a chunk -/
def exS3Old : Bucket := [("f/.zgroup".toList, .doc (.obj [("zarr_format", .int 2)])), ("f/d/0".toList, .file [1])]

theorem exS3Old_wf : exS3Old.WF := by
  refine List.pairwise_cons.2 ⟨?_, List.pairwise_singleton _ _⟩
  intro x hx
  simp only [List.mem_cons, List.not_mem_nil, or_false] at hx
  subst hx
  decide +kernel

/-- **C77, negation**: if the service fails to delete an object, which it reports in a successful response, the
    container counts as truncated: it keeps that object, and gets no document. -/
theorem c77_truncate_counterexample : ∃ (a : S3FileArgs) (w w' : World) (f : S3PyFile), World.Ok w ∧
    (∀ e ∈ w.events, e.Reliable) ∧ a.mode = "w" ∧ s3File a w = (some (.ok f), w') ∧
    w'.bucket.get (docKey a.name (s3FileDoc a.zarrFormat).1) = none ∧ w'.bucket.get "f/d/0".toList ≠ none := by
  let b1 : Bucket := [("f/d/0".toList, .file [1])]
  have hrel : ∀ e ∈ ([{}, {}, { failed := ["f/d/0".toList] }, {}] : List Event), e.Reliable := by
    intro e he
    simp only [List.mem_cons, List.not_mem_nil, or_false] at he
    rcases he with rfl | rfl | rfl | rfl <;> exact ⟨rfl, rfl, (fun d h => by cases h), by decide⟩
  refine ⟨{ name := "f".toList, mode := "w" }, ⟨[{}, {}, { failed := ["f/d/0".toList] }, {}], exS3Old⟩, ⟨[], b1⟩,
    S3FileArgs.file { name := "f".toList, mode := "w" } .w, ⟨exS3Old_wf, fun e he b hb => by rw [(hrel e he).1]; exact hb⟩,
    hrel, rfl, ?_, by decide +kernel, by decide +kernel⟩
  rw [s3File_eq (mode := .w) (by decide) (by decide)]
  refine (S3M.run_bind (x := S3Handle.exist ⟨"f".toList, .w⟩) (a := true)
    (w1 := ⟨[{}, { failed := ["f/d/0".toList] }, {}], exS3Old⟩) rfl).trans ?_
  show (S3Handle.remove ⟨"f".toList, .w⟩ >>= fun _ => s3FileTail _ _ _) _ = _
  refine (S3M.run_bind (a := ()) (w1 := ⟨[{}], b1⟩) ?_).trans rfl
  refine (S3M.run_bind (x := listAllKeys "f/".toList) (f := fun keys => deleteFrom keys 0)
    (a := ["f/.zgroup".toList, "f/d/0".toList]) (w1 := ⟨[{ failed := ["f/d/0".toList] }, {}], exS3Old⟩) rfl).trans ?_
  unfold deleteFrom
  rw [if_pos (by decide)]
  have hreq : request .deleteBatch (deleteObjectsReq ((["f/.zgroup".toList, "f/d/0".toList].drop 0).take
      (min (0 + batchSize) ["f/.zgroup".toList, "f/d/0".toList].length - 0)))
        ⟨[{ failed := ["f/d/0".toList] }, {}], exS3Old⟩ = (some (.ok (.ok ())), ⟨[{}], b1⟩) := rfl
  refine (S3M.run_bind hreq).trans ?_
  show deleteFrom _ _ _ = _
  unfold deleteFrom
  rw [if_neg (by decide)]
  rfl

/-- the container `f`, which must not exist -/
def exS3New : S3FileArgs := { name := "f".toList, mode := "x" }

theorem exS3New_ok : s3File exS3New ⟨List.replicate 4 {}, []⟩ = (some (.ok (exS3New.file .wm)),
    ⟨[], [("f/.zgroup".toList, .doc (.obj [("zarr_format", .int 2)]))]⟩) := rfl

/-- **C77, negation**: two processes that create a container exclusively may both succeed. -/
theorem c77_race_counterexample : ∃ (a : S3FileArgs) (w w' : World) (f : S3PyFile), World.Ok w ∧
    ¬ w.bucket.Exists a.name ∧ a.mode = "x" ∧ s3File a w = (some (.ok f), w') ∧
    ∃ e ∈ w.events, ∃ es : List Event, (∀ b, e.change b = (s3File a ⟨es, b⟩).2.bucket) ∧
      ∃ w'', s3File a ⟨es, w.bucket⟩ = (some (.ok f), w'') := by
  let a := exS3New
  let other : Event := { change := fun b => (s3File exS3New ⟨List.replicate 4 {}, b⟩).2.bucket }
  refine ⟨exS3New, ⟨[{}, {}, {}, other], []⟩, ⟨[], [("f/.zgroup".toList, .doc (.obj [("zarr_format", .int 2)]))]⟩, exS3New.file .wm,
    ⟨List.Pairwise.nil, ?_⟩, (fun ⟨k, h, _⟩ => by cases h), rfl, rfl, other, by simp, List.replicate 4 {}, fun b => rfl,
    _, exS3New_ok⟩
  intro e he b hb
  have ho : (s3File a ⟨List.replicate 4 {}, b⟩).2.bucket.WF := by
    obtain ⟨_, h2, _, h4⟩ := c77_open (a := a) (b := b) (by decide)
    by_cases hx : b.Exists a.name
    · rw [((h2 (by decide) hx).bucket (exS3_calm 4)).elim id id]
      exact hb
    · obtain ⟨f, _, h⟩ := h4 (by decide) hx
      rcases h.bucket (exS3_calm 4) with h | h
      · rw [h]; exact hb
      · rw [h]; exact put_wf hb
  simp only [List.mem_cons, List.not_mem_nil, or_false] at he
  rcases he with rfl | rfl | rfl | rfl
  · exact hb
  · exact hb
  · exact hb
  · exact ho

/-! ### Examples -/

theorem exS3Old_exists : exS3Old.Exists "f".toList := ⟨"f/d/0".toList, by decide +kernel, by decide +kernel⟩

/-- an existing container, and one that is missing -/
example : ∃ f, S3FileArgs.Describes { name := "f".toList } f ∧ (s3File { name := "f".toList }).Does 5 exS3Old (.ok f) exS3Old :=
  (c77_open (a := { name := "f".toList }) (by decide)).2.2.1 (by decide) exS3Old_exists

theorem exS3Old_fresh : ¬ exS3Old.Exists "g".toList := by
  rintro ⟨k, h1, h2⟩
  simp only [exS3Old, Bucket.keys, List.map_cons, List.map_nil, List.mem_cons, List.not_mem_nil, or_false] at h1
  rcases h1 with rfl | rfl <;> exact absurd h2 (by decide +kernel)

example : ∃ f, S3FileArgs.Describes { name := "g".toList, mode := "x", zarrFormat := 3 } f ∧
    (s3File { name := "g".toList, mode := "x", zarrFormat := 3 }).Does 5 exS3Old (.ok f)
      (exS3Old.put "g/zarr.json".toList (.doc v3GroupDoc)) :=
  (c77_open (a := { name := "g".toList, mode := "x", zarrFormat := 3 }) (by decide)).2.2.2 (by decide) exS3Old_fresh

/-- a container is truncated -/
example : ∃ (f : S3PyFile) (w' : World),
    s3File { name := "f".toList, mode := "w" } ⟨List.replicate 10 {}, exS3Old⟩ = (some (.ok f), w') ∧
    w'.bucket.get "f/d/0".toList = none ∧ w'.bucket.get "f/.zgroup".toList = some (.doc (.obj [("zarr_format", .int 2)])) ∧
    s3Unpickle f.initArgs = .ok f := by
  have hh : Healthy (List.replicate 10 ({} : Event)) := fun e he => by
    cases List.eq_of_mem_replicate he
    exact ⟨rfl, fun _ => rfl, by decide, rfl⟩
  obtain ⟨f, w', h⟩ := c77_truncate_ends (a := { name := "f".toList, mode := "w" }) (w := ⟨List.replicate 10 {}, exS3Old⟩)
    (by decide) rfl exS3Old_wf hh (by decide)
  obtain ⟨-, hg⟩ := c77_truncated (by decide) rfl ⟨exS3Old_wf, fun e he b hb => by rw [(hh e he).1]; exact hb⟩
    (fun e he => ⟨exS3_calm 10 e he, (hh e he).2.2.2⟩) h
  refine ⟨f, w', h, ?_, ?_, c77_pickle h⟩
  · rw [hg, if_neg (by decide +kernel), if_pos (by decide +kernel)]
  · rw [hg, if_pos (by decide +kernel)]
    rfl

end Z5
