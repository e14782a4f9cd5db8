import Verif.Spec.PyDataset
import Verif.Props.Formats
import Verif.Props.Factory
import Verif.Proofs.Confined

/-!
# Lemmas for `create_dataset` in Python
-/

namespace Z5

theorem assocSet_keys {β : Type} {l : List (String × β)} {k : String} {v : β} (h : (l.map Prod.fst).Nodup) :
    ((assocSet l k v).map Prod.fst).Nodup ∧ ∀ x, x ∈ (assocSet l k v).map Prod.fst → x = k ∨ x ∈ l.map Prod.fst := by
  induction l with
  | nil => simp [assocSet]
  | cons p l ih =>
    obtain ⟨a, b⟩ := p
    simp only [List.map_cons, List.nodup_cons] at h
    obtain ⟨ih1, ih2⟩ := ih h.2
    unfold assocSet
    by_cases e : a = k
    · rw [if_pos e]
      subst e
      exact ⟨by simpa using h, fun x hx => by simpa using hx⟩
    · rw [if_neg e]
      refine ⟨?_, fun x hx => ?_⟩
      · simp only [List.map_cons, List.nodup_cons]
        refine ⟨fun hm => ?_, ih1⟩
        rcases ih2 _ hm with hm | hm
        · exact e hm
        · exact h.1 hm
      · simp only [List.map_cons, List.mem_cons] at hx ⊢
        rcases hx with hx | hx
        · exact .inr (.inl hx)
        · rcases ih2 _ hx with hx | hx
          · exact .inl hx
          · exact .inr (.inr hx)

theorem assocGet_none_of_not_mem {β : Type} {l : List (String × β)} {k : String} (h : k ∉ l.map Prod.fst) :
    assocGet l k = none := by
  cases hg : assocGet l k with
  | none => rfl
  | some v => exact absurd (List.mem_map_of_mem (f := Prod.fst) (assocGet_some_mem hg)) h

theorem foldl_assocSet {β : Type} {g d : List (String × β)} (hg : (g.map Prod.fst).Nodup) (k : String) :
    assocGet (g.foldl (fun o p => assocSet o p.1 p.2) d) k = (assocGet g k).or (assocGet d k) := by
  induction g generalizing d with
  | nil => rfl
  | cons p g ih =>
    obtain ⟨a, b⟩ := p
    simp only [List.map_cons, List.nodup_cons] at hg
    rw [List.foldl_cons, ih hg.2, assocGet_set]
    simp only [assocGet]
    by_cases e : a = k
    · subst e
      rw [assocGet_none_of_not_mem hg.1]
      simp
    · simp [e]

theorem foldl_assocSet_nodup {β : Type} {g d : List (String × β)} (hd : (d.map Prod.fst).Nodup) :
    ((g.foldl (fun o p => assocSet o p.1 p.2) d).map Prod.fst).Nodup := by
  induction g generalizing d with
  | nil => exact hd
  | cons p g ih => exact ih (assocSet_keys hd).1

/-- the options after the checks -/
theorem pyUpdate_ok {d g o : PyDict} (h : pyUpdate d g = .ok o) (hd : (d.map Prod.fst).Nodup)
    (hg : (g.map Prod.fst).Nodup) :
    (o.map Prod.fst).Nodup ∧ ∀ k, assocGet o k = (assocGet g k).or (assocGet d k) := by
  unfold pyUpdate at h
  obtain ⟨_, h⟩ := ite_ok h
  cases h
  exact ⟨foldl_assocSet_nodup hd, foldl_assocSet hg⟩

theorem pyUpdate_accepts {d g : PyDict} (h : ∀ k v, assocGet g k = some v → assocGet d k ≠ none)
    (hg : (g.map Prod.fst).Nodup) : ∃ o, pyUpdate d g = .ok o := by
  unfold pyUpdate
  rw [if_neg]
  · exact ⟨_, rfl⟩
  · simp only [List.any_eq_true, not_exists, not_and]
    intro p hp hn
    have : assocGet g p.1 ≠ none := by
      clear h hn
      induction g with
      | nil => cases hp
      | cons q g ih =>
        obtain ⟨a, b⟩ := q
        simp only [List.map_cons, List.nodup_cons] at hg
        simp only [assocGet]
        rcases List.mem_cons.1 hp with rfl | hp
        · simp
        · by_cases e : a = p.1
          · simp [e]
          · rw [if_neg e]
            exact ih hg.2 hp
    cases hv : assocGet g p.1 with
    | none => exact this hv
    | some v => exact h _ v hv (by simpa using hn)

/-- a JSON value as an option -/
def optOf : Json → Option OptVal
  | .bool b => some (.bool b)
  | .int i => some (.int (Int.bmod i (2 ^ 32)))
  | .str s => some (.str s)
  | _ => none

theorem jsonToOptions_ok {l : PyDict} {o r : Opts} (h : jsonToOptions l o = .ok r) (hl : (l.map Prod.fst).Nodup) :
    ∀ k, assocGet r k = match assocGet l k with | some v => optOf v | none => assocGet o k := by
  induction l generalizing o with
  | nil => cases h; intro k; rfl
  | cons p l ih =>
    obtain ⟨a, v⟩ := p
    simp only [List.map_cons, List.nodup_cons] at hl
    have key : ∃ w, optOf v = some w ∧ jsonToOptions l (assocSet o a w) = .ok r := by
      cases v <;> simp only [jsonToOptions] at h <;> first | cases h | exact ⟨_, rfl, h⟩
    obtain ⟨w, hw, h⟩ := key
    intro k
    rw [ih h hl.2 k, assocGet_set]
    simp only [assocGet]
    by_cases e : a = k
    · subst e
      rw [assocGet_none_of_not_mem hl.1]
      simp [hw]
    · simp [e]

theorem jsonToOptions_accepts {l : PyDict} {o : Opts} (h : ∀ p ∈ l, optOf p.2 ≠ none) :
    ∃ r, jsonToOptions l o = .ok r := by
  induction l generalizing o with
  | nil => exact ⟨_, rfl⟩
  | cons p l ih =>
    obtain ⟨a, v⟩ := p
    have h1 := h (a, v) List.mem_cons_self
    have h2 : ∀ p ∈ l, optOf p.2 ≠ none := fun p hp => h p (List.mem_cons_of_mem _ hp)
    cases v <;> simp only [jsonToOptions] <;> first | exact ih h2 | exact absurd rfl h1

theorem optOf_typed {v : Json} {w : OptVal} (h : optOf v = some w) : w.Typed := by
  cases v with
  | bool b => cases h; trivial
  | str s => cases h; trivial
  | int i =>
    cases h
    have h1 := @Int.le_bmod i (2 ^ 32) (by decide)
    have h2 := @Int.bmod_lt i (2 ^ 32) (by decide)
    constructor <;> omega
  | _ => cases h

theorem jsonToOptions_typed {l : PyDict} {o r : Opts} (h : jsonToOptions l o = .ok r) (hl : (l.map Prod.fst).Nodup)
    (ho : ∀ k v, assocGet o k = some v → v.Typed) : ∀ k v, assocGet r k = some v → v.Typed := by
  intro k v hv
  rw [jsonToOptions_ok h hl] at hv
  cases hg : assocGet l k with
  | none => rw [hg] at hv; exact ho k v hv
  | some w => rw [hg] at hv; exact optOf_typed hv

theorem assocGet_orElse (o : Opts) (k : String) (v : OptVal) (k' : String) :
    assocGet (o.orElse k v) k' = (assocGet o k').or (if k = k' then some v else none) := by
  unfold Opts.orElse
  cases h : assocGet o k with
  | none =>
    dsimp only
    rw [assocGet_set]
    by_cases e : k = k'
    · subst e; simp [h]
    · simp [e]
  | some w =>
    dsimp only
    by_cases e : k = k'
    · subst e; simp [h]
    · simp [e]

theorem orElse_typed {o : Opts} {k : String} {v : OptVal} (ho : ∀ k v, assocGet o k = some v → v.Typed) (hv : v.Typed) :
    ∀ k' w, assocGet (o.orElse k v) k' = some w → w.Typed := by
  intro k' w hw
  rw [assocGet_orElse] at hw
  cases hg : assocGet o k' with
  | some x => rw [hg] at hw; cases hw; exact ho _ _ hg
  | none =>
    rw [hg] at hw
    by_cases e : k = k'
    · rw [if_pos e] at hw; cases hw; exact hv
    · rw [if_neg e] at hw; cases hw

theorem defaultOptions_typed {c : Compressor} {o : Opts} {z : Bool} (ho : ∀ k v, assocGet o k = some v → v.Typed) :
    ∀ k v, assocGet (defaultOptions c o z) k = some v → v.Typed := by
  have hi : ∀ i : Int, (-2 ^ 31 ≤ i ∧ i < 2 ^ 31) → (OptVal.int i).Typed := fun i h => h
  cases c <;> simp only [defaultOptions]
  · exact ho
  · refine orElse_typed (orElse_typed (orElse_typed (orElse_typed (orElse_typed ho trivial) ?_) ?_) ?_) ?_ <;>
      exact hi _ (by decide)
  · exact orElse_typed (orElse_typed ho (hi _ (by decide))) trivial
  all_goals exact orElse_typed ho (hi _ (by decide))

/-- the options for a format -/
def pyOptionsFor : Layout → String → PyDict → Res PyDict
  | .v2 => pyZarrOptions
  | .v3 => pyZarrV3Options
  | .n5 => pyN5Options

theorem compressor_ok {a : PyCreateArgs} {z : Bool} {f : Int} {c : String} {O : PyDict}
    (h : a.compressor z f = .ok (c, O)) :
    c = a.compression.getD (Layout.of z f).defaultCompressor ∧ pyOptionsFor (Layout.of z f) c a.options = .ok O := by
  unfold PyCreateArgs.compressor at h
  by_cases h3 : z = true ∧ f = 3
  · rw [if_pos h3] at h
    obtain ⟨rfl, rfl⟩ := h3
    obtain ⟨_, h⟩ := ite_ok h
    obtain ⟨O', h1, h⟩ := Res.bind_eq_ok.1 h
    cases h
    exact ⟨rfl, h1⟩
  · rw [if_neg h3] at h
    obtain ⟨_, h⟩ := ite_ok h
    cases z with
    | true =>
      have e : Layout.of true f = .v2 := by
        unfold Layout.of
        rw [if_pos rfl, if_neg (fun e => h3 ⟨rfl, e⟩)]
      rw [e]
      obtain ⟨O', h1, h⟩ := Res.bind_eq_ok.1 h
      cases h
      exact ⟨rfl, h1⟩
    | false =>
      obtain ⟨O', h1, h⟩ := Res.bind_eq_ok.1 h
      cases h
      exact ⟨rfl, h1⟩

/-- what options become -/
structure OptionsAre (g d : PyDict) (r : Opts) : Prop where
  get : ∀ k, assocGet r k = match (assocGet g k).or (assocGet d k) with | some v => optOf v | none => none

theorem optionsAre {d g O : PyDict} {r : Opts} (h : pyUpdate d g = .ok O) (hd : (d.map Prod.fst).Nodup)
    (hg : (g.map Prod.fst).Nodup) (hr : jsonToOptions O [] = .ok r) : OptionsAre g d r := by
  obtain ⟨h1, h2⟩ := pyUpdate_ok h hd hg
  refine ⟨fun k => ?_⟩
  rw [jsonToOptions_ok hr h1 k, h2 k]
  cases (assocGet g k).or (assocGet d k) <;> rfl

theorem OptionsAre.int {g d : PyDict} {r : Opts} {k : String} {dflt i : Int} (h : OptionsAre g d r)
    (hi : IntOption g k dflt i) (hd : assocGet d k = some (.int dflt)) (hr : -2 ^ 31 ≤ dflt ∧ dflt < 2 ^ 31) :
    assocGet r k = some (.int i) := by
  have hb : ∀ x : Int, -2 ^ 31 ≤ x → x < 2 ^ 31 → Int.bmod x (2 ^ 32) = x := by
    intro x h1 h2
    exact Int.bmod_eq_of_le (by omega) (by omega)
  rw [h.get]
  rcases hi with ⟨h1, h2, h3⟩ | ⟨h1, rfl⟩
  · rw [h1]
    simp only [Option.some_or, optOf, hb i h2 h3]
  · rw [h1, hd]
    simp only [Option.none_or, optOf, hb i hr.1 hr.2]

theorem OptionsAre.str {g d : PyDict} {r : Opts} {k : String} {dflt s : String} (h : OptionsAre g d r)
    (hi : StrOption g k dflt s) (hd : assocGet d k = some (.str dflt)) : assocGet r k = some (.str s) := by
  rw [h.get]
  rcases hi with h1 | ⟨h1, rfl⟩
  · rw [h1]; rfl
  · rw [h1, hd]; rfl

theorem OptionsAre.none {g d : PyDict} {r : Opts} {k : String} (h : OptionsAre g d r)
    (hi : assocGet g k = none) (hd : assocGet d k = none) : assocGet r k = none := by
  rw [h.get, hi, hd]; rfl

theorem OnlyOptions.none {g : PyDict} {ks : List String} (h : OnlyOptions g ks) {k : String} (hk : k ∉ ks) :
    assocGet g k = none := by
  cases hg : assocGet g k with
  | none => rfl
  | some v => exact absurd (h k v hg) hk

theorem IntOption.eq_default {g : PyDict} {k : String} {d i : Int} (h : IntOption g k d i) (h' : IntOption g k d d) :
    i = d := by
  rcases h with ⟨h1, _⟩ | ⟨_, rfl⟩
  · rcases h' with ⟨h2, _⟩ | ⟨h2, _⟩
    · rw [h1] at h2; cases h2; rfl
    · rw [h1] at h2; cases h2
  · rfl

/-- the compressor is set up as asked for -/
theorem asked_settings {L : Layout} {c : String} {g O : PyDict} {r : Opts} {S : Settings} (hp : pyOptionsFor L c g = .ok O)
    (ha : Asked L c g S) (hf : Faithful L c g) (hg : (g.map Prod.fst).Nodup) (hr : jsonToOptions O [] = .ok r) :
    ∃ comp, assocGet Compressor.stringToCompressor c = some comp ∧
      initCompressor comp (defaultOptions comp r L.isZarr) = .ok S ∧
      (L ≠ .n5 → initCompressor comp (assocErase (defaultOptions comp r L.isZarr) "nthreads") = .ok S) := by
  cases ha with
  | raw ho => exact ⟨_, rfl, rfl, fun _ => rfl⟩
  | zlib ho hl =>
    have hO := optionsAre (d := [("id", .str "zlib"), ("level", .int 5)]) hp (by decide) hg hr
    have h1 := hO.int hl rfl (by decide)
    have h2 : assocGet r "useZlib" = none := hO.none (ho.none (by decide)) rfl
    refine ⟨_, rfl, ?_, fun _ => ?_⟩ <;>
      simp [initCompressor, defaultOptions, Res.bind_eq_ok, opts_int_iff, opts_bool_iff, assocGet_erase,
        assocGet_orElse, h1, h2, Layout.isZarr]
  | gzip ho hl =>
    cases L with
    | v2 => exact absurd ⟨rfl, rfl⟩ hf.1
    | v3 =>
      have hO := optionsAre (d := [("level", .int 5), ("useZlib", .bool false)]) hp (by decide) hg hr
      have h1 := hO.int hl rfl (by decide)
      have h2 : assocGet r "useZlib" = some (.bool false) := by
        rw [hO.get, ho.none (by decide)]
        rfl
      refine ⟨_, rfl, ?_, fun _ => ?_⟩ <;>
        simp [initCompressor, defaultOptions, Res.bind_eq_ok, opts_int_iff, opts_bool_iff, assocGet_erase,
          assocGet_orElse, h1, h2]
    | n5 =>
      have hO := optionsAre (d := [("level", .int 5)]) hp (by decide) hg hr
      have h1 := hO.int hl rfl (by decide)
      have h2 : assocGet r "useZlib" = none := hO.none (ho.none (by decide)) rfl
      refine ⟨_, rfl, ?_, fun h => absurd rfl h⟩
      simp [initCompressor, defaultOptions, Res.bind_eq_ok, opts_int_iff, opts_bool_iff,
        assocGet_orElse, h1, h2, Layout.isZarr]
  | bzip2 hL ho hl =>
    have hO : OptionsAre g [("level", .int 5)] r := by
      cases L with
      | v3 => exact absurd rfl hL
      | _ => exact optionsAre (d := [("level", .int 5)]) hp (by decide) hg hr
    have h1 := hO.int hl rfl (by decide)
    refine ⟨_, rfl, ?_, fun _ => ?_⟩ <;>
      simp [initCompressor, defaultOptions, Res.bind_eq_ok, opts_int_iff, assocGet_erase, assocGet_orElse, h1]
  | xz ho hl =>
    have hO := optionsAre (d := [("level", .int 6)]) hp (by decide) hg hr
    have h1 := hO.int hl rfl (by decide)
    refine ⟨_, rfl, ?_, fun _ => ?_⟩ <;>
      simp [initCompressor, defaultOptions, Res.bind_eq_ok, opts_int_iff, assocGet_erase, assocGet_orElse, h1]
  | lz4 ho hl =>
    have hO := optionsAre (d := [("level", .int 6)]) hp (by decide) hg hr
    have h1 := hO.int hl rfl (by decide)
    refine ⟨_, rfl, ?_, fun _ => ?_⟩ <;>
      simp [initCompressor, defaultOptions, Res.bind_eq_ok, opts_int_iff, assocGet_erase, assocGet_orElse, h1]
  | zstd ho hl =>
    have hO : OptionsAre g [("level", .int 3)] r := by
      cases L <;> exact optionsAre (d := [("level", .int 3)]) hp (by decide) hg hr
    have h1 := hO.int hl rfl (by decide)
    refine ⟨_, rfl, ?_, fun _ => ?_⟩ <;>
      simp [initCompressor, defaultOptions, Res.bind_eq_ok, opts_int_iff, assocGet_erase, assocGet_orElse, h1]
  | blosc ho hc hl hs hs' hb hn hn' =>
    rename_i cn l sh bl n
    have key : ∃ d : PyDict, OptionsAre g d r ∧ assocGet d "codec" = some (.str "lz4") ∧
        assocGet d "shuffle" = some (.int 1) ∧ assocGet d "blocksize" = some (.int 0) ∧
        (L = .v3 → assocGet d "level" = some (.int 5)) ∧ (L ≠ .v3 → assocGet d "level" = none) ∧
        (L = .n5 → assocGet d "nthreads" = some (.int 1)) ∧ (L ≠ .n5 → assocGet d "nthreads" = none) := by
      cases L with
      | v2 =>
        exact ⟨_, optionsAre (d := [("codec", .str "lz4"), ("clevel", .int 5), ("shuffle", .int 1),
          ("blocksize", .int 0)]) hp (by decide) hg hr, rfl, rfl, rfl, (fun h => by cases h), (fun _ => rfl),
          (fun h => by cases h), (fun _ => rfl)⟩
      | v3 =>
        exact ⟨_, optionsAre (d := [("codec", .str "lz4"), ("level", .int 5), ("shuffle", .int 1),
          ("blocksize", .int 0)]) hp (by decide) hg hr, rfl, rfl, rfl, (fun _ => rfl), (fun h => absurd rfl h),
          (fun h => by cases h), (fun _ => rfl)⟩
      | n5 =>
        exact ⟨_, optionsAre (d := [("codec", .str "lz4"), ("clevel", .int 5), ("shuffle", .int 1),
          ("blocksize", .int 0), ("nthreads", .int 1)]) hp (by decide) hg hr, rfl, rfl, rfl, (fun h => by cases h),
          (fun _ => rfl), (fun _ => rfl), (fun h => absurd rfl h)⟩
    obtain ⟨d, hO, d1, d2, d3, d4, d5, d6, d7⟩ := key
    have h1 := hO.str hc d1
    have h2 := hO.int hs d2 (by decide)
    have h3 := hO.int hb d3 (by decide)
    have h4 : (assocGet r "level").getD (.int 5) = .int l := by
      by_cases e : L = .v3
      · rw [if_pos e] at hl
        rw [hO.int hl (d4 e) (by decide)]
        rfl
      · rw [if_neg e] at hl ho
        rw [hO.none (ho.none (by decide)) (d5 e), hl.eq_default (hf.2 e rfl)]
        rfl
    have h5 : (assocGet r "nthreads").getD (.int 1) = .int n := by
      by_cases e : L = .n5
      · rw [hO.int hn (d6 e) (by decide)]
        rfl
      · rw [hO.none (hn' e) (d7 e)]
        rcases hn with ⟨h, _⟩ | ⟨_, rfl⟩
        · rw [hn' e] at h; cases h
        · rfl
    have h6 : (assocGet r "level").or (some (.int 5)) = some (.int l) := by
      rw [← h4]; cases assocGet r "level" <;> rfl
    have h7 : (assocGet r "nthreads").or (some (.int 1)) = some (.int n) := by
      rw [← h5]; cases assocGet r "nthreads" <;> rfl
    refine ⟨_, rfl, ?_, fun e => ?_⟩
    · simp [initCompressor, defaultOptions, Res.bind_eq_ok, opts_int_iff, opts_str_iff,
        assocGet_orElse, h1, h2, h3, h6, h7]
    · have h8 : n = 1 := by
        rcases hn with ⟨h, _⟩ | ⟨_, rfl⟩
        · rw [hn' e] at h; cases h
        · rfl
      simp [initCompressor, defaultOptions, Res.bind_eq_ok, opts_int_iff, opts_str_iff, assocGet_erase,
        assocGet_orElse, h1, h2, h3, h6, h8]

/-! ### Shape, chunks, type -/

theorem pyRoot_spec {n : Nat} (hn : n ≠ 0) (t : Nat) :
    pyRoot n t ≤ t ∧ (2 * pyRoot n t - 1) ^ n ≤ 2 ^ n * 262144 ∧
    (pyRoot n t < t → 2 ^ n * 262144 < (2 * pyRoot n t + 1) ^ n) := by
  induction t with
  | zero =>
    refine ⟨Nat.le_refl _, ?_, fun h => absurd h (Nat.lt_irrefl _)⟩
    show (2 * 0 - 1) ^ n ≤ _
    rw [Nat.mul_zero, Nat.zero_sub, Nat.zero_pow (Nat.pos_of_ne_zero hn)]
    exact Nat.zero_le _
  | succ t ih =>
    unfold pyRoot
    split
    · rename_i h
      refine ⟨Nat.le_refl _, ?_, fun h => absurd h (Nat.lt_irrefl _)⟩
      rw [show 2 * (t + 1) - 1 = 2 * t + 1 by omega]
      exact h
    · rename_i h
      refine ⟨by omega, ih.2.1, fun _ => ?_⟩
      by_cases e : pyRoot n t < t
      · exact ih.2.2 e
      · have : pyRoot n t = t := by omega
        rw [this]
        omega

theorem pyDefaultDim_spec {n : Nat} (hn : n ≠ 0) : defaultLength n (pyDefaultDim n) := by
  obtain ⟨h1, h2, h3⟩ := pyRoot_spec hn 262144
  refine ⟨h2, ?_⟩
  show 2 ^ n * 262144 < (2 * pyRoot n 262144 + 1) ^ n
  by_cases e : pyRoot n 262144 < 262144
  · exact h3 e
  · have : pyRoot n 262144 = 262144 := by omega
    rw [this]
    calc 2 ^ n * 262144 ≤ 2 ^ n * 262144 ^ n := Nat.mul_le_mul_left _ (Nat.le_self_pow hn _)
      _ = (2 * 262144) ^ n := (Nat.mul_pow ..).symm
      _ < (2 * 262144 + 1) ^ n := Nat.pow_lt_pow_left (by omega) hn

theorem zipWith_min_limited {d : Nat} (s : List Nat) : List.zipWith min (s.map (min d)) s = s.map (min d) := by
  induction s with
  | nil => rfl
  | cons x s ih => rw [List.map_cons, List.zipWith_cons_cons, ih]; congr 1; omega

theorem zip_min_le : ∀ c s : List Nat, ∀ p ∈ List.zip (List.zipWith min c s) s, p.1 ≤ p.2
  | [], _ => by simp
  | _ :: _, [] => by simp
  | x :: c, y :: s => by
    intro p hp
    rw [List.zipWith_cons_cons, List.zip_cons_cons, List.mem_cons] at hp
    rcases hp with rfl | hp
    · exact Nat.min_le_right _ _
    · exact zip_min_le c s p hp

theorem what_ok {a : PyCreateArgs} {s : List Nat} {t : String} (h : a.what = .ok (s, t)) :
    a.AsksShape s ∧ (∀ t', a.dtype = some t' → t' = t) ∧ (∀ s' t', a.data = some (s', t') → t' = t) ∧
    (a.dtype ≠ none ∨ a.data ≠ none) := by
  unfold PyCreateArgs.what at h
  cases hd : a.data with
  | some p =>
    obtain ⟨s', t'⟩ := p
    rw [hd] at h
    obtain ⟨h1, h⟩ := ite_ok h
    obtain ⟨h2, h⟩ := ite_ok h
    cases h
    refine ⟨⟨fun x e => ?_, fun x y e => ?_, .inr ?_⟩, fun x e => ?_, fun x y e => ?_, .inr ?_⟩
    · rw [e] at h1; simpa using h1
    · rw [hd] at e; cases e; rfl
    · rw [hd]; exact fun e => by cases e
    · rw [e] at h2; simpa using h2
    · cases e; rfl
    · exact fun e => by cases e
  | none =>
    rw [hd] at h
    cases hs : a.shape with
    | none => rw [hs] at h; cases h
    | some s' =>
      cases ht : a.dtype with
      | none => rw [hs, ht] at h; cases h
      | some t' =>
        rw [hs, ht] at h
        cases h
        refine ⟨⟨fun x e => ?_, fun x y e => ?_, .inl ?_⟩, fun x e => ?_, fun x y e => ?_, .inl ?_⟩
        · rw [hs] at e; cases e; rfl
        · rw [hd] at e; cases e
        · rw [hs]; exact fun e => by cases e
        · cases e; rfl
        · cases e
        · exact fun e => by cases e

/-- What `create_dataset` of C++ is called with -/
structure Resolved (a : PyCreateArgs) (z : Bool) (f : Int) (args : CreateArgs) (O : PyDict) : Prop where
  what : a.what = .ok (args.shape, args.dtype)
  chunks : a.AsksChunks args.shape args.chunkShape
  axes : args.chunkShape.length = args.shape.length
  limited : ∀ p ∈ List.zip args.chunkShape args.shape, p.1 ≤ p.2
  known : args.dtype ∈ pyDtypes
  compressor : args.compressor = a.compression.getD (Layout.of z f).defaultCompressor
  options : pyOptionsFor (Layout.of z f) args.compressor a.options = .ok O
  fill : args.fill = a.fill
  separator : args.delimiter = a.askedSeparator (Layout.of z f)
  encoding : args.encoding = a.askedEncoding (Layout.of z f)
  format : args.zarrFormat = if Layout.of z f = .v3 then 3 else 2
  shards : args.shardShape = a.shards.getD []
  noShards : Layout.of z f ≠ .v3 → a.shards = none
  called : a.compressor z f = .ok (args.compressor, O)

theorem Layout.of_v3 {z : Bool} {f : Int} : Layout.of z f = .v3 ↔ z = true ∧ f = 3 := by
  unfold Layout.of
  cases z with
  | false => simp
  | true => by_cases h : f = 3 <;> simp [h]

def resolvedArgs (a : PyCreateArgs) (z : Bool) (f : Int) (s : List Nat) (t : String) (c : List Nat) (comp : String) :
    CreateArgs :=
  { dtype := t, shape := s, chunkShape := PyGroup.limitChunks c s,
    compressor := comp, fill := a.fill,
    delimiter := if decide (z = true ∧ f = 3) then (if a.encoding = "v2" then "." else "/") else a.separator,
    zarrFormat := if decide (z = true ∧ f = 3) then 3 else 2,
    encoding := if decide (z = true ∧ f = 3) then a.encoding else "default",
    shardShape := if decide (z = true ∧ f = 3) then a.shards.getD [] else [] }

theorem resolve_ok {a : PyCreateArgs} {z : Bool} {f : Int} {args : CreateArgs} {O : PyDict}
    (h : a.resolve z f = .ok (args, O)) : Resolved a z f args O := by
  unfold PyCreateArgs.resolve at h
  obtain ⟨⟨s, t⟩, hw, h⟩ := Res.bind_eq_ok.1 h
  have h : ∃ c, (match a.chunks with | some c => Res.ok c | none => pyDefaultChunks s) = .ok c ∧
      (if c.length ≠ s.length then Res.throw Err.runtimeError
       else if t ∉ pyDtypes then .throw .invalidArgument
       else if a.shards.isSome ∧ ¬ (z = true ∧ f = 3) then .throw .invalidArgument
       else (a.compressor z f).bind fun p => Res.ok (resolvedArgs a z f s t c p.1, p.2))
        = .ok (args, O) := by
    cases hc : a.chunks with
    | none =>
      rw [hc] at h
      obtain ⟨c, h1, h⟩ := Res.bind_eq_ok.1 h
      exact ⟨c, h1, h⟩
    | some c =>
      rw [hc] at h
      exact ⟨c, rfl, h⟩
  obtain ⟨c, hc, h⟩ := h
  obtain ⟨hl, h⟩ := ite_ok h
  obtain ⟨hk, h⟩ := ite_ok h
  obtain ⟨hsh, h⟩ := ite_ok h
  obtain ⟨⟨comp, O'⟩, hcomp, h⟩ := Res.bind_eq_ok.1 h
  cases h
  obtain ⟨hcm, ho⟩ := compressor_ok hcomp
  have hl' : c.length = s.length := by simpa using hl
  have hk' : t ∈ pyDtypes := by simpa using hk
  clear hl hk
  have hdec : decide (z = true ∧ f = 3) = true ∧ Layout.of z f = .v3 ∨
      decide (z = true ∧ f = 3) = false ∧ (Layout.of z f = .v2 ∨ Layout.of z f = .n5) := by
    by_cases e : z = true ∧ f = 3
    · exact .inl ⟨by simpa using e, Layout.of_v3.2 e⟩
    · refine .inr ⟨by simpa using e, ?_⟩
      cases hL : Layout.of z f
      · exact .inl rfl
      · exact absurd (Layout.of_v3.1 hL) e
      · exact .inr rfl
  refine ⟨hw, ?_, ?_, ?_, hk', hcm, ho, rfl, ?_, ?_, ?_, ?_, ?_, ?_⟩
  · cases hg : a.chunks with
    | some c' =>
      rw [hg] at hc
      cases hc
      exact .inl ⟨_, hg, hl', rfl⟩
    | none =>
      rw [hg] at hc
      unfold pyDefaultChunks at hc
      obtain ⟨hs, hc⟩ := ite_ok hc
      cases hc
      refine .inr ⟨hg, _, pyDefaultDim_spec ?_, ?_⟩
      · exact fun e => hs (List.length_eq_zero_iff.1 e)
      · exact zipWith_min_limited s
  · show (List.zipWith min c s).length = s.length
    rw [List.length_zipWith, hl', Nat.min_self]
  · show ∀ p ∈ List.zip (List.zipWith min c s) s, p.1 ≤ p.2
    exact zip_min_le c s
  · unfold resolvedArgs
    rcases hdec with ⟨e, e'⟩ | ⟨e, e' | e'⟩ <;> rw [e, e'] <;> rfl
  · unfold resolvedArgs
    rcases hdec with ⟨e, e'⟩ | ⟨e, e' | e'⟩ <;> rw [e, e'] <;> rfl
  · unfold resolvedArgs
    rcases hdec with ⟨e, e'⟩ | ⟨e, e' | e'⟩ <;> rw [e, e'] <;> rfl
  · show (if _ then _ else _) = _
    by_cases e : z = true ∧ f = 3
    · rw [if_pos (by simpa using e)]
    · rw [if_neg (by simpa using e)]
      cases hx : a.shards with
      | none => rfl
      | some x => exact absurd ⟨by rw [hx]; rfl, e⟩ hsh
  · intro hL
    cases hx : a.shards with
    | none => rfl
    | some x => exact absurd ⟨by rw [hx]; rfl, fun e => hL (Layout.of_v3.2 e)⟩ hsh
  · exact hcomp

/-- The names of the data types are those of `plainTypeName`. -/
theorem dtype_name {t : String} {dt : Datatype} (h : assocGet Datatype.n5ToDtype t = some dt) :
    plainTypeName dt = some t := by
  have := assocGet_some_mem h
  simp only [Datatype.n5ToDtype, List.mem_cons, List.not_mem_nil, or_false, Prod.mk.injEq] at this
  rcases this with ⟨rfl, rfl⟩ | ⟨rfl, rfl⟩ | ⟨rfl, rfl⟩ | ⟨rfl, rfl⟩ | ⟨rfl, rfl⟩ | ⟨rfl, rfl⟩ | ⟨rfl, rfl⟩ |
    ⟨rfl, rfl⟩ | ⟨rfl, rfl⟩ | ⟨rfl, rfl⟩ <;> rfl

/-! ### What is created -/

/-- the settings that a document says -/
def Layout.writtenSettings : Layout → Settings → Settings
  | .v2, S => S
  | .v3, S => S.asV3
  | .n5, S => S.asN5

/-- The document of a new dataset says what the arguments say. -/
theorem toJson_describes {m : Meta} {j : Json} {S : Settings} (hm : m.Typed) (hj : m.toJson = .ok j)
    (hf : m.isZarr = true → m.zarrFormat = 2 ∨ m.zarrFormat = 3)
    (hsh : m.shardShape ≠ [] → m.isZarr = true ∧ m.zarrFormat = 3)
    (h1 : m.isZarr = false → initCompressor m.compressor m.options = .ok S)
    (h2 : m.isZarr = true → m.settings = .ok S) (sep enc : String)
    (hsep : m.isZarr = true → sep = m.delimiter)
    (henc : enc = match Layout.of m.isZarr m.zarrFormat with | .v3 => m.encoding | _ => "default") :
    ∃ d, (Layout.of m.isZarr m.zarrFormat).Describes j ⟨m.dtype, m.shape, m.chunkShape, m.shardShape,
        (Layout.of m.isZarr m.zarrFormat).writtenSettings S, some d, sep, enc⟩ ∧
      (m.isZarr = true → m.dtype.castFill d = m.dtype.castFill m.fillValue) ∧ (m.isZarr = false → d = .zero) := by
  cases hz : m.isZarr with
  | false =>
    have hs : m.shardShape = [] := by
      by_cases e : m.shardShape = []
      · exact e
      · rw [hz] at hsh; exact absurd (hsh e).1 (by decide)
    refine ⟨.zero, ?_, (fun e => by cases e), fun _ => rfl⟩
    rw [hs]
    exact c59_n5_write hm hz hj (h1 hz) sep enc
  | true =>
    rcases hf hz with h | h
    · have hs : m.shardShape = [] := by
        by_cases e : m.shardShape = []
        · exact e
        · have := (hsh e).2; rw [h] at this; exact absurd this (by decide)
      refine ⟨m.fillValue, ?_, fun _ => rfl, (fun e => by cases e)⟩
      rw [hz, h] at henc
      rw [hs, hsep hz, henc, h]
      exact c59_v2_write hm hz h hj (h2 hz)
    · obtain ⟨d, hd, hc⟩ := c59_v3_write hm hz h hj (h2 hz)
      refine ⟨d, ?_, fun _ => hc, (fun e => by cases e)⟩
      rw [hz, h] at henc
      rw [hsep hz, henc, h]
      exact hd

theorem createDatasetAt_relative {g : GroupHandle} {n : PyName} (hn : n.absolute = false) (a : CreateArgs) :
    g.createDatasetAt n a = g.createDataset n.parts a := by
  unfold GroupHandle.createDatasetAt GroupHandle.createDataset PyName.under
  rw [hn]
  rfl

theorem createDatasetJsonAt_ok {g : GroupHandle} {n : PyName} {a : CreateArgs} {O : PyDict} {ds : DatasetObj} {σ σ' : Fs}
    (hn : n.absolute = false) (h : g.createDatasetJsonAt n a (.obj O) σ = (.ok ds, σ')) :
    ∃ r, jsonToOptions O [] = .ok r ∧ g.createDataset n.parts { a with options := r } σ = (.ok ds, σ') := by
  unfold GroupHandle.createDatasetJsonAt at h
  obtain ⟨_, σ1, h1, h⟩ := FsM.bind_ok.1 h
  obtain ⟨_, rfl⟩ := FsM.lift_ok.1 h1
  obtain ⟨r, σ2, h2, h⟩ := FsM.bind_ok.1 h
  obtain ⟨hr, rfl⟩ := FsM.lift_ok.1 h2
  rw [createDatasetAt_relative hn] at h
  exact ⟨r, hr, h⟩

theorem createMeta_options {a : CreateArgs} {z : Bool} {m : Meta} (h : a.toMeta z = .ok m) :
    m.options = defaultOptions m.compressor a.options z := by
  unfold CreateArgs.toMeta createMeta at h
  obtain ⟨dt, _, h⟩ := Res.bind_eq_ok.1 h
  obtain ⟨comp, _, h⟩ := Res.bind_eq_ok.1 h
  by_cases hs : a.shardShape = []
  · rw [if_neg (by simpa using hs)] at h
    obtain ⟨_, _, h⟩ := Res.bind_eq_ok.1 h
    cases h
    rfl
  · rw [if_pos hs] at h
    obtain ⟨_, _, h⟩ := Res.bind_eq_ok.1 h
    obtain ⟨_, _, h⟩ := Res.bind_eq_ok.1 h
    cases h
    rfl

theorem zip_lt {c s : List Nat} {b : Nat} (hl : c.length = s.length) (h : ∀ p ∈ List.zip c s, p.1 ≤ p.2)
    (hs : ∀ n ∈ s, n < b) : ∀ n ∈ c, n < b := by
  intro n hn
  obtain ⟨i, hi, rfl⟩ := List.mem_iff_getElem.1 hn
  have hi' : i < s.length := hl ▸ hi
  have := h (c[i], s[i]) (List.mem_iff_getElem.2 ⟨i, by rw [List.length_zip, hl, Nat.min_self]; exact hi',
    by rw [List.getElem_zip]⟩)
  exact Nat.lt_of_le_of_lt this (hs _ (List.getElem_mem hi'))

theorem Asked.written {L : Layout} {c : String} {o : PyDict} {S : Settings} (h : Asked L c o S) :
    L.writtenSettings S = S := by
  cases h with
  | raw _ => cases L <;> rfl
  | zlib _ _ => rfl
  | gzip _ _ => cases L <;> rfl
  | bzip2 _ _ _ => cases L <;> rfl
  | xz _ _ => rfl
  | lz4 _ _ => rfl
  | zstd _ _ => cases L <;> rfl
  | blosc _ _ _ _ hs _ _ _ =>
    simp only [List.mem_cons, List.not_mem_nil, or_false] at hs
    rcases hs with rfl | rfl | rfl <;> cases L <;> rfl

theorem pyOptionsFor_nodup {L : Layout} {c : String} {g O : PyDict} (h : pyOptionsFor L c g = .ok O) :
    (O.map Prod.fst).Nodup := by
  have key : ∀ d : PyDict, (d.map Prod.fst).Nodup → pyUpdate d g = .ok O → (O.map Prod.fst).Nodup := by
    intro d hd h
    unfold pyUpdate at h
    obtain ⟨_, h⟩ := ite_ok h
    cases h
    exact foldl_assocSet_nodup hd
  cases L <;> simp only [pyOptionsFor, pyZarrOptions, pyZarrV3Options, pyN5Options] at h <;>
    (repeat' split at h) <;> first | exact key _ (by decide) h | (cases h; done)

theorem newDatasetFull_ok {g : PyGroup} {n : PyName} {a : PyCreateArgs} {ds : DatasetObj} {σ σ' : Fs} (hσ : σ.WF)
    (hn : n.absolute = false) (ha : a.Typed) (h : g.newDatasetFull n a σ = (.ok ds, σ')) :
    g.handle.isZarr σ = (.ok ds.info.isZarr, σ) ∧ ds.handle.path = g.handle.path ++ n.parts ∧
    ∃ j, a.Stored (Layout.of ds.info.isZarr g.zarrFormat) j ∧
      σ.NewNode σ' (g.handle.path ++ n.parts)
        (fun k => if k = (Layout.of ds.info.isZarr g.zarrFormat).datasetFile then some j else none) := by
  unfold PyGroup.newDatasetFull at h
  obtain ⟨z, σ1, h1, h3⟩ := FsM.bind_ok.1 h
  clear h
  have : σ1 = σ := by
    rw [Z5.group_isZarr] at h1
    exact (Prod.mk.inj h1).2.symm
  subst this
  obtain ⟨⟨args, O⟩, σ2, h2, h⟩ := FsM.bind_ok.1 h3
  clear h3
  obtain ⟨hr, rfl⟩ := FsM.lift_ok.1 h2
  dsimp only at h
  have R := resolve_ok hr
  obtain ⟨r, hro, h⟩ := createDatasetJsonAt_ok hn h
  obtain ⟨z', m, j, hz', _, hm, rfl, _, hh, hj, hnew⟩ := GroupHandle.createDataset_ok hσ h
  have : z' = z := by
    rw [h1] at hz'
    cases hz'
    rfl
  subst this
  obtain ⟨e1, e2, e3, e4, e5, e6, e7, e8, e9, e10, e11, e12⟩ := createMeta_ok hm
  have eo := createMeta_options hm
  dsimp only at e2 e3 e4 e5 e6 e7 e8 e9 e10 eo
  have hL : Layout.of ds.info.isZarr ds.info.zarrFormat = Layout.of z' g.zarrFormat := by
    rw [e1, e2, R.format]
    cases z' with
    | false => rfl
    | true => by_cases hf : g.zarrFormat = 3 <;> simp [Layout.of, hf]
  have hLf : ds.info.isZarr = true → ds.info.zarrFormat = 2 ∨ ds.info.zarrFormat = 3 := by
    intro _
    rw [e2, R.format]
    split
    · exact .inr rfl
    · exact .inl rfl
  obtain ⟨hs1, hs2, hs3, hs4⟩ := what_ok R.what
  have hO := pyOptionsFor_nodup R.options
  have hshape : ∀ n ∈ ds.info.shape, n < 2 ^ 64 := by
    rw [e3]
    exact ha.shape _ hs1
  have hty : ds.info.Typed := by
    refine ⟨e11, hshape, ?_, ?_, ?_, ?_⟩
    · rw [e4]
      exact zip_lt R.axes R.limited (ha.shape _ hs1)
    · rw [e5, R.shards]
      cases hsh : a.shards with
      | none => simp
      | some x => exact ha.shards x hsh
    · rw [eo]
      exact defaultOptions_typed (jsonToOptions_typed hro hO (by intro k v e; cases e))
    · rw [e6, R.fill]
      exact ha.fill
  refine ⟨by rw [h1, e1], by rw [hh]; rfl, j, ?_, ?_⟩
  · rw [e1]
    refine ⟨ds.info.dtype, ds.info.shape, ds.info.chunkShape, by rw [e3]; exact hs1, ?_, ?_, ?_⟩
    · have hd := dtype_name e9
      exact ⟨fun t e => by rw [hd, hs2 t e], fun x t e => by rw [hd, hs3 x t e], hs4⟩
    · rw [e3, e4]
      exact R.chunks
    · intro S hS hF
      rw [← R.compressor] at hS hF
      obtain ⟨comp, hc, hi, hi'⟩ := asked_settings R.options hS hF ha.options hro
      rw [e10] at hc
      cases hc
      have hz : (Layout.of z' g.zarrFormat).isZarr = z' := by
        cases z' with
        | false => rfl
        | true => by_cases hf : g.zarrFormat = 3 <;> simp [Layout.of, hf, Layout.isZarr]
      rw [hz, ← eo] at hi hi'
      have hsep : ds.info.isZarr = true → a.askedSeparator (Layout.of z' g.zarrFormat) = ds.info.delimiter := by
        intro _
        rw [e7, R.separator]
      have henc : a.askedEncoding (Layout.of z' g.zarrFormat)
          = match Layout.of ds.info.isZarr ds.info.zarrFormat with | .v3 => ds.info.encoding | _ => "default" := by
        rw [hL, e8, R.encoding]
        cases Layout.of z' g.zarrFormat <;> rfl
      obtain ⟨d, hd, hcast, _⟩ := toJson_describes hty hj hLf (fun e => ⟨e1.trans (e12 e).1, (e12 e).2⟩) (fun _ => hi)
        (fun e => hi' (by
          rw [e1] at e
          rw [e]
          by_cases hf : g.zarrFormat = 3 <;> simp [Layout.of, hf])) _ _ hsep henc
      rw [hL, hS.written, e5, R.shards] at hd
      refine ⟨d, hd, fun hne => ?_⟩
      rw [hcast, e6, R.fill]
      rw [e1]
      cases z' with
      | true => rfl
      | false => exact absurd rfl hne
  · rw [fileName_layout, hL] at hnew
    rw [e1]
    exact hnew

/-! ### What is accepted -/

theorem defaultLength_unique {n d d' : Nat} (h : defaultLength n d) (h' : defaultLength n d') : d = d' := by
  have key : ∀ {d d' : Nat}, defaultLength n d → defaultLength n d' → ¬ d < d' := by
    intro d d' h h' hlt
    have := Nat.pow_le_pow_left (show 2 * d + 1 ≤ 2 * d' - 1 by omega) n
    exact absurd (Nat.lt_of_lt_of_le h.2 (Nat.le_trans this h'.1)) (Nat.lt_irrefl _)
  have h1 := key h h'
  have h2 := key h' h
  omega

theorem what_accepts {a : PyCreateArgs} {s : List Nat} {dt : Datatype} (hs : a.AsksShape s) (ht : a.AsksType dt) :
    ∃ t, plainTypeName dt = some t ∧ a.what = .ok (s, t) := by
  unfold PyCreateArgs.what
  cases hd : a.data with
  | some p =>
    obtain ⟨s', t'⟩ := p
    have h1 := hs.2.1 s' t' hd
    have h2 := ht.2.1 s' t' hd
    subst h1
    refine ⟨t', h2, ?_⟩
    dsimp only
    rw [if_neg, if_neg]
    · cases hx : a.dtype with
      | none => simp
      | some x =>
        have := ht.1 x hx
        rw [h2] at this
        cases this
        simp
    · cases hx : a.shape with
      | none => simp
      | some x => rw [hs.1 x hx]; simp
  | none =>
    cases hx : a.shape with
    | none =>
      rcases hs.2.2 with e | e
      · exact absurd hx e
      · exact absurd hd e
    | some x =>
      cases hy : a.dtype with
      | none =>
        rcases ht.2.2 with e | e
        · exact absurd hy e
        · exact absurd hd e
      | some y =>
        have h1 := hs.1 x hx
        subst h1
        exact ⟨y, ht.1 y hy, rfl⟩

theorem plainTypeName_known {dt : Datatype} {t : String} (h : plainTypeName dt = some t) :
    t ∈ pyDtypes ∧ assocGet Datatype.n5ToDtype t = some dt := by
  cases dt <;> cases h <;> decide

theorem assocGet_of_mem {β : Type} : ∀ {l : List (String × β)} {p : String × β}, (l.map Prod.fst).Nodup → p ∈ l →
    assocGet l p.1 = some p.2
  | (a, b) :: l, p, hn, hp => by
    simp only [List.map_cons, List.nodup_cons] at hn
    unfold assocGet
    rcases List.mem_cons.1 hp with rfl | hp
    · simp
    · have : a ≠ p.1 := fun e => hn.1 (e ▸ List.mem_map_of_mem (f := Prod.fst) hp)
      rw [if_neg (by simpa using this)]
      exact assocGet_of_mem hn.2 hp

theorem update_accepts {d g : PyDict} {ks : List String} (hg : (g.map Prod.fst).Nodup) (hd : (d.map Prod.fst).Nodup)
    (ho : OnlyOptions g ks) (hk : ∀ k ∈ ks, assocGet d k ≠ none)
    (hs : ∀ k ∈ ks, ∀ v, assocGet g k = some v → optOf v ≠ none) (hdd : ∀ p ∈ d, optOf p.2 ≠ none) :
    ∃ O r, pyUpdate d g = .ok O ∧ jsonToOptions O [] = .ok r := by
  obtain ⟨O, hO⟩ := pyUpdate_accepts (d := d) (g := g) (fun k v e => hk k (ho k v e)) hg
  obtain ⟨h1, h2⟩ := pyUpdate_ok hO hd hg
  have : ∀ p ∈ O, optOf p.2 ≠ none := by
    intro p hp
    have hget := assocGet_of_mem h1 hp
    rw [h2] at hget
    cases hq : assocGet g p.1 with
    | some v =>
      rw [hq] at hget
      cases hget
      exact hs _ (ho _ _ hq) _ hq
    | none =>
      rw [hq] at hget
      exact hdd _ (assocGet_some_mem hget)
  obtain ⟨r, hr⟩ := jsonToOptions_accepts (o := []) this
  exact ⟨O, r, hO, hr⟩

theorem IntOption.simple {o : PyDict} {k : String} {d i : Int} (h : IntOption o k d i) (v : Json)
    (hv : assocGet o k = some v) : optOf v ≠ none := by
  rcases h with ⟨e, _⟩ | ⟨e, _⟩
  · rw [e] at hv; cases hv; exact fun x => by cases x
  · rw [e] at hv; cases hv

theorem StrOption.simple {o : PyDict} {k : String} {d i : String} (h : StrOption o k d i) (v : Json)
    (hv : assocGet o k = some v) : optOf v ≠ none := by
  rcases h with e | ⟨e, _⟩
  · rw [e] at hv; cases hv; exact fun x => by cases x
  · rw [e] at hv; cases hv

theorem level_accepts {d g : PyDict} {l x : Int} (hg : (g.map Prod.fst).Nodup) (hd : (d.map Prod.fst).Nodup)
    (ho : OnlyOptions g ["level"]) (hk : assocGet d "level" ≠ none) (hl : IntOption g "level" x l)
    (hdd : ∀ p ∈ d, optOf p.2 ≠ none) : ∃ O r, pyUpdate d g = .ok O ∧ jsonToOptions O [] = .ok r :=
  update_accepts hg hd ho (fun k e => by simp only [List.mem_singleton] at e; rw [e]; exact hk)
    (fun k e v hv => by simp only [List.mem_singleton] at e; rw [e] at hv; exact hl.simple v hv) hdd

theorem asked_accepts {L : Layout} {c : String} {g : PyDict} {S : Settings} (ha : Asked L c g S)
    (hg : (g.map Prod.fst).Nodup) : ∃ O r, pyOptionsFor L c g = .ok O ∧ jsonToOptions O [] = .ok r := by
  have hraw : ∀ {g : PyDict}, (g.map Prod.fst).Nodup → OnlyOptions g [] →
      ∃ O r, pyUpdate [] g = .ok O ∧ jsonToOptions O [] = .ok r := fun hg ho =>
    update_accepts hg (by decide) ho (by simp) (by simp) (by simp)
  cases ha with
  | raw ho => cases L <;> exact hraw hg ho
  | zlib ho hl => exact level_accepts (d := [("id", .str "zlib"), ("level", .int 5)]) hg (by decide) ho (by decide) hl (by decide)
  | gzip ho hl =>
    cases L with
    | v2 => exact level_accepts (d := [("id", .str "gzip"), ("level", .int 5)]) hg (by decide) ho (by decide) hl (by decide)
    | v3 =>
      exact level_accepts (d := [("level", .int 5), ("useZlib", .bool false)]) hg (by decide) ho (by decide) hl (by decide)
    | n5 => exact level_accepts (d := [("level", .int 5)]) hg (by decide) ho (by decide) hl (by decide)
  | bzip2 hL ho hl =>
    cases L with
    | v3 => exact absurd rfl hL
    | _ => exact level_accepts (d := [("level", .int 5)]) hg (by decide) ho (by decide) hl (by decide)
  | xz ho hl => exact level_accepts (d := [("level", .int 6)]) hg (by decide) ho (by decide) hl (by decide)
  | lz4 ho hl => exact level_accepts (d := [("level", .int 6)]) hg (by decide) ho (by decide) hl (by decide)
  | zstd ho hl => cases L <;> exact level_accepts (d := [("level", .int 3)]) hg (by decide) ho (by decide) hl (by decide)
  | blosc ho hc hl hs hs' hb hn hn' =>
    have hsimple : ∀ k ∈ ["codec", if L = .v3 then "level" else "clevel", "shuffle", "blocksize", "nthreads"],
        ∀ v, assocGet g k = some v → optOf v ≠ none := by
      intro k hk v hv
      simp only [List.mem_cons, List.not_mem_nil, or_false] at hk
      rcases hk with rfl | rfl | rfl | rfl | rfl
      · exact hc.simple v hv
      · exact hl.simple v hv
      · exact hs.simple v hv
      · exact hb.simple v hv
      · exact hn.simple v hv
    cases L with
    | n5 =>
      exact update_accepts (d := [("codec", .str "lz4"), ("clevel", .int 5), ("shuffle", .int 1), ("blocksize", .int 0),
        ("nthreads", .int 1)]) hg (by decide) ho (by decide) hsimple (by decide)
    | v2 =>
      have ho' : OnlyOptions g ["codec", "clevel", "shuffle", "blocksize"] := by
        intro k v e
        have := ho k v e
        have hne : k ≠ "nthreads" := fun x => by
          subst x
          rw [hn' (by decide)] at e
          cases e
        simp only [List.mem_cons, List.not_mem_nil, or_false] at this ⊢
        simpa [hne] using this
      exact update_accepts (d := [("codec", .str "lz4"), ("clevel", .int 5), ("shuffle", .int 1), ("blocksize", .int 0)])
        hg (by decide) ho' (by decide) (fun k hk => hsimple k (by
          simp only [List.mem_cons, List.not_mem_nil, or_false] at hk ⊢
          rcases hk with e | e | e | e <;> simp [e])) (by decide)
    | v3 =>
      have ho' : OnlyOptions g ["codec", "level", "shuffle", "blocksize"] := by
        intro k v e
        have := ho k v e
        have hne : k ≠ "nthreads" := fun x => by
          subst x
          rw [hn' (by decide)] at e
          cases e
        simp only [List.mem_cons, List.not_mem_nil, or_false] at this ⊢
        simpa [hne] using this
      exact update_accepts (d := [("codec", .str "lz4"), ("level", .int 5), ("shuffle", .int 1), ("blocksize", .int 0)])
        hg (by decide) ho' (by decide) (fun k hk => hsimple k (by
          simp only [List.mem_cons, List.not_mem_nil, or_false] at hk ⊢
          rcases hk with e | e | e | e <;> simp [e])) (by decide)

theorem Asked.known {L : Layout} {c : String} {o : PyDict} {S : Settings} (h : Asked L c o S) :
    c ∈ match L with | .v2 => pyCompressorsZarr | .v3 => pyCompressorsV3 | .n5 => pyCompressorsN5 := by
  cases h with
  | raw _ => cases L <;> decide
  | zlib _ _ => decide
  | gzip _ _ => cases L <;> decide
  | bzip2 hL _ _ => cases L <;> first | decide | exact absurd rfl hL
  | xz _ _ => decide
  | lz4 _ _ => decide
  | zstd _ _ => cases L <;> decide
  | blosc _ _ _ _ _ _ _ _ => cases L <;> decide

theorem compressor_accepts {a : PyCreateArgs} {z : Bool} {f : Int} {O : PyDict} {S : Settings}
    (ha : Asked (Layout.of z f) (a.compression.getD (Layout.of z f).defaultCompressor) a.options S)
    (hO : pyOptionsFor (Layout.of z f) (a.compression.getD (Layout.of z f).defaultCompressor) a.options = .ok O) :
    a.compressor z f = .ok (a.compression.getD (Layout.of z f).defaultCompressor, O) := by
  have hk := ha.known
  unfold PyCreateArgs.compressor
  by_cases h3 : z = true ∧ f = 3
  · rw [if_pos h3]
    rw [Layout.of_v3.2 h3] at hk hO ⊢
    dsimp only
    refine (if_neg (fun x => x hk)).trans ?_
    show (pyZarrV3Options (a.compression.getD "blosc") a.options).bind _ = _
    rw [show pyZarrV3Options (a.compression.getD "blosc") a.options = .ok O from hO]
    rfl
  · rw [if_neg h3]
    have hany : ∀ l : List String, ∀ d, a.compression.getD d ∈ l → a.compression.any (fun c => !decide (c ∈ l)) = false := by
      intro l d h
      cases hc : a.compression with
      | none => rfl
      | some x => rw [hc] at h; simpa using h
    cases z with
    | true =>
      have e : Layout.of true f = .v2 := by
        unfold Layout.of
        rw [if_pos rfl, if_neg (fun e => h3 ⟨rfl, e⟩)]
      rw [e] at hk hO ⊢
      refine (if_neg ?_).trans ?_
      · rw [show (if true = true then pyCompressorsZarr else pyCompressorsN5) = pyCompressorsZarr from rfl]
        exact fun x => Bool.noConfusion ((hany pyCompressorsZarr _ hk).symm.trans x)
      · show (pyZarrOptions (a.compression.getD "blosc") a.options).bind _ = _
        rw [show pyZarrOptions (a.compression.getD "blosc") a.options = .ok O from hO]
        rfl
    | false =>
      refine (if_neg ?_).trans ?_
      · rw [show (if false = true then pyCompressorsZarr else pyCompressorsN5) = pyCompressorsN5 from rfl]
        exact fun x => Bool.noConfusion ((hany pyCompressorsN5 _ hk).symm.trans x)
      · show (pyN5Options (a.compression.getD "gzip") a.options).bind _ = _
        rw [show pyN5Options (a.compression.getD "gzip") a.options = .ok O from hO]
        rfl

theorem resolve_accepts {a : PyCreateArgs} {z : Bool} {f : Int} {s c : List Nat} {dt : Datatype} {S : Settings}
    (hs : a.AsksShape s) (ht : a.AsksType dt) (hc : a.AsksChunks s c) (hne : s ≠ [])
    (hsh : ShardsFit (Layout.of z f) a.shards c)
    (hS : Asked (Layout.of z f) (a.compression.getD (Layout.of z f).defaultCompressor) a.options S)
    (hg : (a.options.map Prod.fst).Nodup) :
    ∃ args O r, a.resolve z f = .ok (args, O) ∧ jsonToOptions O [] = .ok r ∧ args.shape = s ∧ args.chunkShape = c ∧
      assocGet Datatype.n5ToDtype args.dtype = some dt := by
  obtain ⟨t, ht1, ht2⟩ := what_accepts hs ht
  obtain ⟨hk, hd⟩ := plainTypeName_known ht1
  obtain ⟨O, r, hO, hr⟩ := asked_accepts hS hg
  have hcomp := compressor_accepts hS hO
  have hch : ∃ c0, (match a.chunks with | some c => Res.ok c | none => pyDefaultChunks s) = .ok c0 ∧
      c0.length = s.length ∧ PyGroup.limitChunks c0 s = c := by
    rcases hc with ⟨c0, e1, e2, e3⟩ | ⟨e1, d, e2, e3⟩
    · rw [e1]
      exact ⟨c0, rfl, e2, e3.symm⟩
    · rw [e1]
      refine ⟨s.map (min (pyDefaultDim s.length)), ?_, by simp, ?_⟩
      · exact if_neg hne
      · rw [e3, defaultLength_unique e2 (pyDefaultDim_spec (fun e => hne (List.length_eq_zero_iff.1 e)))]
        exact zipWith_min_limited s
  obtain ⟨c0, h1, h2, h3⟩ := hch
  refine ⟨resolvedArgs a z f s t c0 (a.compression.getD (Layout.of z f).defaultCompressor), O, r, ?_, hr, rfl, h3, hd⟩
  have hrest : (if c0.length ≠ s.length then Res.throw Err.runtimeError
       else if t ∉ pyDtypes then .throw .invalidArgument
       else if a.shards.isSome ∧ ¬ (z = true ∧ f = 3) then .throw .invalidArgument
       else (a.compressor z f).bind fun p => Res.ok (resolvedArgs a z f s t c0 p.1, p.2))
        = .ok (resolvedArgs a z f s t c0 (a.compression.getD (Layout.of z f).defaultCompressor), O) := by
    rw [if_neg (by simpa using h2), if_neg (by simpa using hk), if_neg, hcomp]
    · rfl
    · rintro ⟨e1, e2⟩
      cases hx : a.shards with
      | none => rw [hx] at e1; cases e1
      | some x => exact e2 (Layout.of_v3.1 (hsh x hx).1)
  unfold PyCreateArgs.resolve
  rw [ht2]
  cases hx : a.chunks with
  | none =>
    rw [hx] at h1
    dsimp only at h1
    show (pyDefaultChunks s).bind _ = _
    rw [h1]
    exact hrest
  | some x =>
    rw [hx] at h1
    cases h1
    exact hrest

theorem writeZarr_accepts {c : Compressor} {o : Opts} {S : Settings} (h : initCompressor c o = .ok S) (hc : c ≠ .xz) :
    ∃ j, writeZarrOptions c o = .ok j := by
  cases c with
  | raw => exact ⟨_, rfl⟩
  | xz => exact absurd rfl hc
  | blosc =>
    simp only [initCompressor, Res.bind_eq_ok] at h
    obtain ⟨l, h1, s, h2, x, h3, b, h4, _⟩ := h
    simp [writeZarrOptions, enumAt, Compressor.compressorToZarr, h1, h2, h3, h4]
  | zlib =>
    simp only [initCompressor, Res.bind_eq_ok] at h
    obtain ⟨l, h1, s, h2, _⟩ := h
    simp [writeZarrOptions, enumAt, Compressor.compressorToZarr, h1, h2]
  | bzip2 | lz4 | zstd =>
    simp only [initCompressor, Res.bind_eq_ok] at h
    obtain ⟨l, h1, _⟩ := h
    simp [writeZarrOptions, enumAt, Compressor.compressorToZarr, h1]

theorem writeN5_accepts {c : Compressor} {o : Opts} {S : Settings} (h : initCompressor c o = .ok S)
    (hn : c = .blosc → assocGet o "nthreads" ≠ none) : ∃ j, writeN5Options c o = .ok j := by
  cases c with
  | raw => exact ⟨_, rfl⟩
  | blosc =>
    simp only [initCompressor, Res.bind_eq_ok] at h
    obtain ⟨l, h1, s, h2, x, h3, b, h4, h5⟩ := h
    have : ∃ n, o.int "nthreads" = .ok n := by
      cases hg : assocGet o "nthreads" with
      | none => exact absurd hg (hn rfl)
      | some v =>
        rw [hg] at h5
        cases v with
        | int n => exact ⟨n, opts_int_iff.2 hg⟩
        | _ => cases h5
    obtain ⟨n, h5⟩ := this
    simp [writeN5Options, enumAt, Compressor.compressorToN5, h1, h2, h3, h4, h5]
  | zlib =>
    simp only [initCompressor, Res.bind_eq_ok] at h
    obtain ⟨l, h1, s, h2, _⟩ := h
    simp [writeN5Options, enumAt, Compressor.compressorToN5, h1]
  | bzip2 | lz4 | zstd | xz =>
    simp only [initCompressor, Res.bind_eq_ok] at h
    obtain ⟨l, h1, _⟩ := h
    simp [writeN5Options, enumAt, Compressor.compressorToN5, h1]

theorem writeV3_accepts {c : Compressor} {o : Opts} {S : Settings} {t : Nat} (h : initCompressor c o = .ok S)
    (hc : c ∈ [Compressor.raw, .zlib, .zstd, .blosc]) : ∃ j, writeV3Codecs c o t = .ok j := by
  cases c with
  | raw => exact ⟨_, rfl⟩
  | blosc =>
    simp only [initCompressor, Res.bind_eq_ok] at h
    obtain ⟨l, h1, s, h2, x, h3, b, h4, h5⟩ := h
    simp [writeV3Codecs, h1, h2, h3, h4]
  | zlib =>
    simp only [initCompressor, Res.bind_eq_ok] at h
    obtain ⟨l, h1, s, h2, _⟩ := h
    simp [writeV3Codecs, h1]
  | zstd =>
    simp only [initCompressor, Res.bind_eq_ok] at h
    obtain ⟨l, h1, _⟩ := h
    simp [writeV3Codecs, h1]
  | bzip2 | lz4 | xz => exact absurd hc (by decide)

/-- the compressors of the formats -/
theorem Asked.compressor {L : Layout} {c : String} {o : PyDict} {S : Settings} (h : Asked L c o S) {comp : Compressor}
    (hc : assocGet Compressor.stringToCompressor c = some comp) :
    (L ≠ .n5 → comp ≠ .xz) ∧ (L = .v3 → comp ∈ [Compressor.raw, .zlib, .zstd, .blosc]) := by
  cases h with
  | raw _ => cases hc; exact ⟨fun _ => by decide, fun _ => by decide⟩
  | zlib _ _ => cases hc; exact ⟨fun _ => by decide, fun _ => by decide⟩
  | gzip _ _ => cases hc; exact ⟨fun _ => by decide, fun _ => by decide⟩
  | bzip2 hL _ _ => cases hc; exact ⟨fun _ => by decide, fun e => absurd e hL⟩
  | xz _ _ => cases hc; exact ⟨fun e => absurd rfl e, fun e => by cases e⟩
  | lz4 _ _ => cases hc; exact ⟨fun _ => by decide, fun e => by cases e⟩
  | zstd _ _ => cases hc; exact ⟨fun _ => by decide, fun _ => by decide⟩
  | blosc _ _ _ _ _ _ _ _ => cases hc; exact ⟨fun _ => by decide, fun _ => by decide⟩

theorem shardMultiples_accepts : ∀ {s c : List Nat}, (∀ p ∈ List.zip s c, 0 < p.1 ∧ p.2 ∣ p.1) → shardMultiples s c = .ok ()
  | [], _, _ => rfl
  | _ :: _, [], _ => rfl
  | x :: s, y :: c, h => by
    obtain ⟨h1, h2⟩ := h (x, y) (by simp)
    have h3 := Nat.le_of_dvd h1 h2
    unfold shardMultiples
    dsimp only at h1 h2 h3
    rw [if_neg (by omega), if_neg, if_neg]
    · exact shardMultiples_accepts fun p hp => h p (by rw [List.zip_cons_cons]; exact List.mem_cons_of_mem _ hp)
    · rw [Nat.mod_eq_zero_of_dvd h2]; simp
    · intro e
      subst e
      rw [Nat.zero_dvd] at h2
      omega

theorem shardMultiples_ok : ∀ {s c : List Nat}, shardMultiples s c = .ok () →
    ∀ p ∈ List.zip s c, p.2 ≤ p.1 ∧ 0 < p.2 ∧ p.2 ∣ p.1
  | [], _, _ => by simp
  | _ :: _, [], _ => by simp
  | x :: s, y :: c, h => by
    unfold shardMultiples at h
    obtain ⟨h1, h⟩ := ite_ok h
    by_cases hy : y = 0
    · rw [if_pos hy] at h; cases h
    · rw [if_neg hy] at h
      obtain ⟨h2, h⟩ := ite_ok h
      intro p hp
      rw [List.zip_cons_cons, List.mem_cons] at hp
      rcases hp with rfl | hp
      · exact ⟨by dsimp only; omega, by dsimp only; omega, Nat.dvd_of_mod_eq_zero (by simpa using h2)⟩
      · exact shardMultiples_ok h p hp

theorem castFill_accepts {dt : Datatype} {d : Dbl} (h : FillFits dt d) : ∃ v, dt.castFill d = .ok v := by
  have hf : (∀ neg u, d = .fin neg u → u ≤ (2 ^ 24 - 1) * 2 ^ 1178) → ∃ v, (do return FillVal.dbl (← d.toFloat) : Res FillVal) = .ok v := by
    intro h
    cases d with
    | nan => exact ⟨_, rfl⟩
    | inf => exact ⟨_, rfl⟩
    | fin neg u =>
      refine ⟨.dbl (.fin neg (Dbl.roundAt u (Dbl.floatExp u))), ?_⟩
      unfold Dbl.toFloat
      dsimp only
      rw [if_pos (show u ≤ Dbl.maxFloat from h neg u rfl)]
      rfl
  cases dt <;> first
    | exact ⟨_, rfl⟩
    | exact hf h
    | (obtain ⟨i, h1, h2, h3⟩ := h
       refine ⟨.int i, ?_⟩
       unfold Datatype.castFill Dbl.toInt
       rw [h1]
       dsimp only [Datatype.range]
       rw [if_pos ⟨h2, h3⟩]
       rfl)

theorem v3Fill_accepts {dt : Datatype} {d : Dbl} (h : FillFits dt d) : ∃ v, Meta.v3Fill dt d = .ok v := by
  unfold Meta.v3Fill
  cases hs : Meta.specialFill d with
  | some j => exact ⟨_, rfl⟩
  | none =>
    cases dt <;> first
      | exact ⟨_, rfl⟩
      | (obtain ⟨i, h1, h2, h3⟩ := h
         refine ⟨.int i, ?_⟩
         dsimp only
         unfold Dbl.toInt
         rw [h1]
         dsimp only
         rw [if_pos (by omega)]
         rfl)

/-! ### What is refused -/

theorem castFill_fits {dt : Datatype} {d : Dbl} {v : FillVal} (h : dt.castFill d = .ok v) : FillFits dt d := by
  have key : ∀ lo hi : Int, (do return FillVal.int (← d.toInt lo hi) : Res FillVal) = .ok v →
      ∃ i, d.trunc = some i ∧ lo ≤ i ∧ i < hi := by
    intro lo hi h
    obtain ⟨i, h1, _⟩ := Res.bind_eq_ok.1 h
    unfold Dbl.toInt at h1
    cases ht : d.trunc with
    | none => rw [ht] at h1; cases h1
    | some j =>
      rw [ht] at h1
      dsimp only at h1
      by_cases e : lo ≤ j ∧ j < hi
      · exact ⟨j, rfl, e⟩
      · rw [if_neg e] at h1; cases h1
  have hf : (do return FillVal.dbl (← d.toFloat) : Res FillVal) = .ok v → ∀ neg u, d = .fin neg u → u ≤ (2 ^ 24 - 1) * 2 ^ 1178 := by
    rintro h neg u rfl
    obtain ⟨i, h1, _⟩ := Res.bind_eq_ok.1 h
    unfold Dbl.toFloat at h1
    dsimp only at h1
    by_cases e : u ≤ Dbl.maxFloat
    · exact e
    · rw [if_neg e] at h1; cases h1
  cases dt <;> first | exact key _ _ h | exact hf h | trivial

theorem compressor_known {a : PyCreateArgs} {z : Bool} {f : Int} {c : String} {O : PyDict}
    (h : a.compressor z f = .ok (c, O)) : c ∈ (Layout.of z f).compressors := by
  obtain ⟨_, hO⟩ := compressor_ok h
  unfold PyCreateArgs.compressor at h
  by_cases h3 : z = true ∧ f = 3
  · rw [if_pos h3] at h
    obtain ⟨rfl, rfl⟩ := h3
    obtain ⟨hc, h⟩ := ite_ok h
    obtain ⟨O', h1, h⟩ := Res.bind_eq_ok.1 h
    cases h
    simp only [Classical.not_not, pyCompressorsV3, List.mem_cons, List.not_mem_nil, or_false] at hc
    show _ ∈ ["raw", "blosc", "gzip", "zstd"]
    rcases hc with e | e | e | e <;> rw [e] <;> decide
  · rw [if_neg h3] at h
    obtain ⟨hc, h⟩ := ite_ok h
    have hmem : ∀ (l : List String) (d : String), d ∈ l → ¬ a.compression.any (fun c => !decide (c ∈ l)) = true →
        a.compression.getD d ∈ l := by
      intro l d hd h
      cases hx : a.compression with
      | none => exact hd
      | some x => rw [hx] at h; simpa using h
    cases z with
    | true =>
      have e : Layout.of true f = .v2 := by
        unfold Layout.of
        rw [if_pos rfl, if_neg (fun e => h3 ⟨rfl, e⟩)]
      rw [e]
      obtain ⟨O', h1, h⟩ := Res.bind_eq_ok.1 h
      cases h
      have := hmem pyCompressorsZarr "blosc" (by decide) hc
      simp only [pyCompressorsZarr, List.mem_cons, List.not_mem_nil, or_false] at this
      show _ ∈ ["raw", "blosc", "zlib", "gzip", "bzip2", "zstd"]
      rcases this with e | e | e | e | e | e <;> rw [e] <;> decide
    | false =>
      obtain ⟨O', h1, h⟩ := Res.bind_eq_ok.1 h
      cases h
      exact hmem pyCompressorsN5 "gzip" (by decide) hc

theorem options_known {L : Layout} {c : String} {g O : PyDict} (h : pyOptionsFor L c g = .ok O) (hc : c ∈ L.compressors) :
    ∀ p ∈ g, p.1 ∈ optionNames L c := by
  have key : ∀ (d : PyDict) (ks : List String), pyUpdate d g = .ok O → (∀ p ∈ d, p.1 ∈ ks) → ∀ p ∈ g, p.1 ∈ ks := by
    intro d ks h hd p hp
    unfold pyUpdate at h
    obtain ⟨h1, _⟩ := ite_ok h
    simp only [List.any_eq_true, not_exists, not_and] at h1
    have h1 := h1 p hp
    cases hg : assocGet d p.1 with
    | none => rw [hg] at h1; exact absurd rfl h1
    | some v => exact hd (p.1, v) (assocGet_some_mem hg)
  cases L <;> simp only [Layout.compressors, List.mem_cons, List.not_mem_nil, or_false] at hc
  · rcases hc with rfl | rfl | rfl | rfl | rfl | rfl <;> exact key _ _ h (by decide)
  · rcases hc with rfl | rfl | rfl | rfl <;> exact key _ _ h (by decide)
  · rcases hc with rfl | rfl | rfl | rfl | rfl | rfl | rfl <;> exact key _ _ h (by decide)

theorem createDatasetFull_new {g : PyGroup} {n : PyName} {a : PyCreateArgs} {ds : DatasetObj} {σ σ' : Fs} (hσ : σ.WF)
    (hn : n.absolute = false) (h : g.createDatasetFull n a σ = (.ok ds, σ')) :
    ∃ (g' : PyGroup) (n' : PyName) (σ1 : Fs), σ1.WF ∧ n'.absolute = false ∧ g'.zarrFormat = g.zarrFormat ∧
      g'.newDatasetFull n' a σ1 = (.ok ds, σ') := by
  unfold PyGroup.createDatasetFull at h
  by_cases hw : (!g.handle.mode.canWrite) = true
  · rw [if_pos hw] at h
    cases h
  · rw [if_neg hw] at h
    obtain ⟨b, σ1, h1, h2⟩ := FsM.bind_ok.1 h
    clear h
    obtain rfl : σ1 = σ := by
      have : (Res.ok _, σ) = (Res.ok b, σ1) := h1
      cases this
      rfl
    by_cases hb : b = true
    · rw [if_pos hb] at h2
      cases h2
    · rw [if_neg hb] at h2
      by_cases hl : n.parts.length > 1
      · rw [if_pos hl] at h2
        obtain ⟨g', σ2, h3, h4⟩ := FsM.bind_ok.1 h2
        clear h2
        have hσ2 : σ2.WF := by
          have := FsM.Keeps.requireGroups (root := []) (ns := n.parts.dropLast) (g := g) List.nil_prefix σ1
            ⟨hσ, fun q hq hne => absurd (List.prefix_nil.1 hq) hne⟩
          rw [h3] at this
          exact this.1.1
        by_cases hw' : (!g'.handle.mode.canWrite) = true
        · rw [if_pos hw'] at h4
          cases h4
        · rw [if_neg hw'] at h4
          obtain ⟨b', σ3, h5, h6⟩ := FsM.bind_ok.1 h4
          clear h4
          obtain rfl : σ3 = σ2 := by
            have : (Res.ok _, σ2) = (Res.ok b', σ3) := h5
            cases this
            rfl
          by_cases hb' : b' = true
          · rw [if_pos hb'] at h6
            cases h6
          · rw [if_neg hb'] at h6
            exact ⟨g', _, σ3, hσ2, rfl, by rw [requireGroups_ok h3], h6⟩
      · rw [if_neg hl] at h2
        exact ⟨g, n, σ1, hσ, hn, rfl, h2⟩

theorem newDatasetFull_call {g : PyGroup} {n : PyName} {a : PyCreateArgs} {ds : DatasetObj} {σ σ' : Fs} (hσ : σ.WF)
    (hn : n.absolute = false) (ha : a.Typed) (h : g.newDatasetFull n a σ = (.ok ds, σ')) :
    ∃ args, g.handle.createDataset n.parts args σ = (.ok ds, σ') ∧ ds.info.Typed ∧
      (args.zarrFormat = 2 ∨ args.zarrFormat = 3) ∧ a.AsksShape ds.info.shape ∧ a.AsksType ds.info.dtype ∧
      a.AsksChunks ds.info.shape ds.info.chunkShape := by
  unfold PyGroup.newDatasetFull at h
  obtain ⟨z, σ1, h1, h3⟩ := FsM.bind_ok.1 h
  clear h
  have : σ1 = σ := by
    rw [Z5.group_isZarr] at h1
    exact (Prod.mk.inj h1).2.symm
  subst this
  obtain ⟨⟨args, O⟩, σ2, h2, h⟩ := FsM.bind_ok.1 h3
  clear h3
  obtain ⟨hr, rfl⟩ := FsM.lift_ok.1 h2
  dsimp only at h
  have R := resolve_ok hr
  obtain ⟨r, hro, h⟩ := createDatasetJsonAt_ok hn h
  obtain ⟨z', m, j, hz', _, hm, rfl, _, hh, hj, hnew⟩ := GroupHandle.createDataset_ok hσ h
  obtain ⟨e1, e2, e3, e4, e5, e6, e7, e8, e9, e10, e11, e12⟩ := createMeta_ok hm
  have eo := createMeta_options hm
  dsimp only at e2 e3 e4 e5 e6 e7 e8 e9 e10 eo
  obtain ⟨hs1, hs2, hs3, hs4⟩ := what_ok R.what
  have hO := pyOptionsFor_nodup R.options
  have hd := dtype_name e9
  refine ⟨_, h, ⟨e11, by rw [e3]; exact ha.shape _ hs1, ?_, ?_, ?_, ?_⟩, ?_, by rw [e3]; exact hs1,
    ⟨fun t e => by rw [hd, hs2 t e], fun x t e => by rw [hd, hs3 x t e], hs4⟩, by rw [e3, e4]; exact R.chunks⟩
  · rw [e4]
    exact zip_lt R.axes R.limited (ha.shape _ hs1)
  · rw [e5, R.shards]
    cases hsh : a.shards with
    | none => simp
    | some x => exact ha.shards x hsh
  · rw [eo]
    exact defaultOptions_typed (jsonToOptions_typed hro hO (by intro k v e; cases e))
  · rw [e6, R.fill]
    exact ha.fill
  · dsimp only
    rw [R.format]
    split
    · exact .inr rfl
    · exact .inl rfl

end Z5
