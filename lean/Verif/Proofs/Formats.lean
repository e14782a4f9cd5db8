import Verif.Spec.Formats
import Verif.Proofs.Metadata

/-!
# Lemmas for the formats of metadata documents
-/

namespace Z5

theorem sub_of_find {j v : Json} {k : String} (h : j.find k = some v) : j.sub k = .ok v := by
  cases j <;> first | (cases h; done) | (simp only [Json.find] at h; simp only [Json.sub, h])

theorem at_of_find {j v : Json} {k : String} (h : j.find k = some v) : j.at' k = .ok v := by
  cases j <;> first | (cases h; done) | (simp only [Json.find] at h; simp only [Json.at', h])

theorem valueStr_of_find {j : Json} {s d : String} {k : String} (h : j.find k = some (.str s)) :
    j.valueStr k d = .ok s := by
  cases j <;> first | (cases h; done) | (simp only [Json.find] at h; simp only [Json.valueStr, h]; rfl)

theorem valueInt_of_find {j : Json} {i d : Int} {k : String} (h : Json.IsInt (j.find k) i) : j.valueInt k d = .ok i := by
  obtain ⟨h, hi⟩ := h
  cases j <;> first | (cases h; done) | (simp only [Json.find] at h; simp only [Json.valueInt, h]; exact getInt_int hi)

theorem sub_int {j : Json} {i : Int} {k : String} (h : Json.IsInt (j.find k) i) :
    ((j.sub k) >>= fun v => v.getInt) = .ok i := by
  rw [sub_of_find h.1]
  exact getInt_int h.2

theorem path_cons {j : Json} {k : String} {ks : List String} {v : Json} :
    j.path (k :: ks) = some v ↔ ∃ w, j.find k = some w ∧ w.path ks = some v := by
  simp only [Json.path]
  cases j.find k <;> simp

theorem path_one {j : Json} {k : String} : j.path [k] = j.find k := by
  simp only [Json.path]
  cases j.find k <;> rfl

theorem path_two {j : Json} {k l : String} : j.path [k, l] = (j.find k).bind (·.find l) := by
  simp only [Json.path]
  cases j.find k with
  | none => rfl
  | some v =>
    dsimp only [Option.bind_some]
    cases v.find l <;> rfl

macro "format_solve" "[" ts:Lean.Parser.Tactic.simpLemma,* "]" : tactic =>
  `(tactic| simp [initCompressor, Opts.int, Opts.str, Opts.bool, mapAt, assocGet, Json.getStr, assocSet, $ts,*])

theorem v2_compression {c : Json} {s : Settings} (h : ZarrV2.Compression c s) :
    ∃ comp o, Meta.readZarrCompressor c = .ok (comp, o) ∧ initCompressor comp o = .ok s := by
  have hn : ∀ {k v}, c.find k = some v → c.isNull = false := by
    intro k v h
    cases c <;> first | rfl | cases h
  cases h with
  | raw => exact ⟨_, _, rfl, rfl⟩
  | @zlib _ l h1 h2 =>
    refine ⟨.zlib, [("level", .int l), ("useZlib", .bool true)], ?_, ?_⟩
    · format_solve [Meta.readZarrCompressor, hn h1, Meta.atOrRuntime, Compressor.zarrToCompressor, readZarrOptions,
        sub_of_find h1, sub_of_find h2.1, getInt_int h2.2]
    · format_solve []
  | @gzip _ l h1 h2 =>
    refine ⟨.zlib, [("level", .int l), ("useZlib", .bool false)], ?_, ?_⟩
    · format_solve [Meta.readZarrCompressor, hn h1, Meta.atOrRuntime, Compressor.zarrToCompressor, readZarrOptions,
        sub_of_find h1, sub_of_find h2.1, getInt_int h2.2]
    · format_solve []
  | @bz2 _ l h1 h2 =>
    refine ⟨.bzip2, [("level", .int l)], ?_, ?_⟩
    · format_solve [Meta.readZarrCompressor, hn h1, Meta.atOrRuntime, Compressor.zarrToCompressor, readZarrOptions,
        sub_of_find h1, sub_of_find h2.1, getInt_int h2.2]
    · format_solve []
  | @lz4 _ l h1 h2 =>
    refine ⟨.lz4, [("level", .int l)], ?_, ?_⟩
    · format_solve [Meta.readZarrCompressor, hn h1, Meta.atOrRuntime, Compressor.zarrToCompressor, readZarrOptions,
        sub_of_find h1, sub_of_find h2.1, getInt_int h2.2]
    · format_solve []
  | @zstd _ l h1 h2 =>
    refine ⟨.zstd, [("level", .int l)], ?_, ?_⟩
    · format_solve [Meta.readZarrCompressor, hn h1, Meta.atOrRuntime, Compressor.zarrToCompressor, readZarrOptions,
        sub_of_find h1, sub_of_find h2.1, getInt_int h2.2]
    · format_solve []
  | @blosc _ cname l s b h1 h2 h3 h4 h5 =>
    refine ⟨.blosc, [("codec", .str cname), ("level", .int l), ("shuffle", .int s), ("blocksize", .int b)], ?_, ?_⟩
    · rcases h5 with h5 | ⟨h5, rfl⟩
      · format_solve [Meta.readZarrCompressor, hn h1, Meta.atOrRuntime, Compressor.zarrToCompressor, readZarrOptions,
          sub_of_find h1, sub_of_find h2, sub_of_find h3.1, getInt_int h3.2, sub_of_find h4.1, getInt_int h4.2, h5.1,
          getInt_int h5.2]
      · format_solve [Meta.readZarrCompressor, hn h1, Meta.atOrRuntime, Compressor.zarrToCompressor, readZarrOptions,
          sub_of_find h1, sub_of_find h2, sub_of_find h3.1, getInt_int h3.2, sub_of_find h4.1, getInt_int h4.2, h5]
    · format_solve []

theorem n5_compression {j c : Json} {s : Settings} (hc : j.find "compression" = some c) (h : N5.Compression c s) :
    ∃ comp o, Meta.readN5Compressor j = .ok (comp, o) ∧ initCompressor comp o = .ok s := by
  cases h with
  | raw h1 =>
    refine ⟨.raw, [], ?_, ?_⟩
    · format_solve [Meta.readN5Compressor, hc, show c.find "type" = _ from h1, Meta.atOrRuntime, Compressor.n5ToCompressor, readN5Options]
    · format_solve []
  | @gzip l h1 h2 h3 =>
    refine ⟨.zlib, [("level", .int l), ("useZlib", .bool false)], ?_, ?_⟩
    · format_solve [Meta.readN5Compressor, hc, show c.find "type" = _ from h1, Meta.atOrRuntime, Compressor.n5ToCompressor, readN5Options,
        sub_of_find h2.1, getInt_int h2.2]
    · format_solve []
  | @bzip2 l h1 h2 =>
    refine ⟨.bzip2, [("level", .int l)], ?_, ?_⟩
    · format_solve [Meta.readN5Compressor, hc, show c.find "type" = _ from h1, Meta.atOrRuntime, Compressor.n5ToCompressor, readN5Options,
        sub_of_find h2.1, getInt_int h2.2]
    · format_solve []
  | @xz l h1 h2 =>
    refine ⟨.xz, [("level", .int l)], ?_, ?_⟩
    · format_solve [Meta.readN5Compressor, hc, show c.find "type" = _ from h1, Meta.atOrRuntime, Compressor.n5ToCompressor, readN5Options,
        sub_of_find h2.1, getInt_int h2.2]
    · format_solve []
  | @lz4 l h1 h2 =>
    refine ⟨.lz4, [("level", .int l)], ?_, ?_⟩
    · format_solve [Meta.readN5Compressor, hc, show c.find "type" = _ from h1, Meta.atOrRuntime, Compressor.n5ToCompressor, readN5Options,
        sub_of_find h2.1, getInt_int h2.2]
    · format_solve []
  | @zstd l h1 h2 =>
    refine ⟨.zstd, [("level", .int l)], ?_, ?_⟩
    · format_solve [Meta.readN5Compressor, hc, show c.find "type" = _ from h1, Meta.atOrRuntime, Compressor.n5ToCompressor, readN5Options,
        sub_of_find h2.1, getInt_int h2.2]
    · format_solve []
  | @blosc cname l s b n h1 h2 h3 h4 h5 h6 =>
    refine ⟨.blosc, [("codec", .str cname), ("level", .int l), ("shuffle", .int s), ("blocksize", .int b),
      ("nthreads", .int n)], ?_, ?_⟩
    · rcases h5 with h5 | ⟨h5, rfl⟩ <;> rcases h6 with h6 | ⟨h6, rfl⟩
      · format_solve [Meta.readN5Compressor, hc, show c.find "type" = _ from h1, Meta.atOrRuntime, Compressor.n5ToCompressor, readN5Options,
          sub_of_find h2, sub_of_find h3.1, getInt_int h3.2, sub_of_find h4.1, getInt_int h4.2, h5.1, getInt_int h5.2,
          h6.1, getInt_int h6.2]
      · format_solve [Meta.readN5Compressor, hc, show c.find "type" = _ from h1, Meta.atOrRuntime, Compressor.n5ToCompressor, readN5Options,
          sub_of_find h2, sub_of_find h3.1, getInt_int h3.2, sub_of_find h4.1, getInt_int h4.2, h5.1, getInt_int h5.2, h6]
      · format_solve [Meta.readN5Compressor, hc, show c.find "type" = _ from h1, Meta.atOrRuntime, Compressor.n5ToCompressor, readN5Options,
          sub_of_find h2, sub_of_find h3.1, getInt_int h3.2, sub_of_find h4.1, getInt_int h4.2, h5, h6.1, getInt_int h6.2]
      · format_solve [Meta.readN5Compressor, hc, show c.find "type" = _ from h1, Meta.atOrRuntime, Compressor.n5ToCompressor, readN5Options,
          sub_of_find h2, sub_of_find h3.1, getInt_int h3.2, sub_of_find h4.1, getInt_int h4.2, h5, h6]
    · format_solve []

theorem shuffleName_read {s : Int} {n : String} (h : ZarrV3.shuffleName s = some n) : shuffleFromJson (.str n) = .ok s := by
  unfold ZarrV3.shuffleName at h
  split at h <;> cases h <;> rfl

/-- the configuration of a codec -/
theorem configOf {c : Json} {k : String} {v : Json} (h : c.path ["configuration", k] = some v) :
    ∃ cfg, c.find "configuration" = some cfg ∧ ∀ k, c.path ["configuration", k] = cfg.find k := by
  rw [path_two] at h
  cases hc : c.find "configuration" with
  | none => rw [hc] at h; cases h
  | some cfg => exact ⟨cfg, rfl, fun k => by rw [path_two, hc]; rfl⟩

theorem v3_codecs {dt : Datatype} {l : List Json} {s : Settings} (h : ZarrV3.Codecs dt l s) :
    (∃ comp o, readV3Codecs (.arr l) [] = .ok (comp, o) ∧ initCompressor comp o = .ok s) ∧
    Meta.findSharding l = .ok none := by
  have hb : ∀ {e : Json}, ZarrV3.Bytes e dt → e.at' "name" = .ok (.str "bytes") := fun h => at_of_find h.1
  cases h with
  | raw h1 =>
    refine ⟨⟨.raw, [], ?_, ?_⟩, ?_⟩
    · format_solve [readV3Codecs, Json.elems, readV3Loop, hb h1]
    · format_solve []
    · format_solve [Meta.findSharding, hb h1, Json.eqStr]
  | @gzip e c l h1 h2 h3 =>
    obtain ⟨cfg, hc, hp⟩ := configOf h3.1
    rw [hp] at h3
    refine ⟨⟨.zlib, [("level", .int l), ("useZlib", .bool false)], ?_, ?_⟩, ?_⟩
    · format_solve [readV3Codecs, Json.elems, readV3Loop, hb h1, at_of_find h2, hc, valueInt_of_find h3]
    · format_solve []
    · format_solve [Meta.findSharding, hb h1, Json.eqStr, at_of_find h2]
  | @zstd e c l h1 h2 h3 =>
    obtain ⟨cfg, hc, hp⟩ := configOf h3.1
    rw [hp] at h3
    refine ⟨⟨.zstd, [("level", .int l)], ?_, ?_⟩, ?_⟩
    · format_solve [readV3Codecs, Json.elems, readV3Loop, hb h1, at_of_find h2, hc, valueInt_of_find h3]
    · format_solve []
    · format_solve [Meta.findSharding, hb h1, Json.eqStr, at_of_find h2]
  | @blosc e c cname l s b h1 h2 h3 h4 h5 _ h6 =>
    obtain ⟨cfg, hc, hp⟩ := configOf h3
    obtain ⟨n, hn, h5⟩ := h5
    rw [hp] at h3 h4 h5 h6
    refine ⟨⟨.blosc, [("codec", .str cname), ("level", .int l), ("shuffle", .int s), ("blocksize", .int b)], ?_, ?_⟩, ?_⟩
    · format_solve [readV3Codecs, Json.elems, readV3Loop, hb h1, at_of_find h2, hc, valueStr_of_find h3,
        valueInt_of_find h4, show cfg.find "shuffle" = _ from h5, shuffleName_read hn, valueInt_of_find h6]
    · format_solve []
    · format_solve [Meta.findSharding, hb h1, Json.eqStr, at_of_find h2]

theorem fill_read {f : Option Json} {d : Option Dbl} (h : Json.IsFill f d) (e : Dbl) :
    ∃ j x, f = some j ∧ d = some x ∧ Meta.readFill j e = .ok x := by
  cases h <;> exact ⟨_, _, rfl, rfl, by simp [Meta.readFill, Json.getDouble]⟩

theorem shape_read {j : Option Json} {s : List Nat} (h : Json.IsShape j s) (hs : ∀ n ∈ s, n < 2 ^ 64) :
    ∃ v, j = some v ∧ Json.sizes v.elems = .ok s :=
  ⟨_, h, sizes_ofShape hs⟩

end Z5
