import Verif.Proofs.S3ContainerHist

/-!
# Calls of several steps on S3
-/

namespace Z5

namespace S3M.Ends

variable {α β : Type} {b b' : Bucket}

theorem of_does {x : S3M α} {n : Nat} {a : α} {P : α → Bucket → Prop} {Q : Bucket → Prop} (h : x.Does n b (.ok a) b')
    (hP : P a b') (hQ : Q b) (hQ' : Q b') : x.Ends n b P Q := by
  intro es hes
  rcases h es hes with ⟨es', h1, h2, h3⟩ | ⟨es', b'', _, h2, h3, h4⟩ | ⟨h1, h2⟩
  · exact .inl ⟨a, es', b', h1, h2, h3, hP⟩
  · refine .inr (.inl ⟨es', b'', h2, ?_, h4⟩)
    rcases h3 with rfl | rfl
    · exact hQ
    · exact hQ'
  · exact .inr (.inr ⟨h1, b, h2, hQ⟩)

theorem bind {x : S3M α} {f : α → S3M β} {n k : Nat} {P : α → Bucket → Prop} {P' : β → Bucket → Prop} {Q Q' : Bucket → Prop}
    (hx : x.Ends n b P Q) (hf : ∀ a c, P a c → (f a).Ends k c P' Q') (hQ : ∀ c, Q c → Q' c) :
    (x >>= f).Ends (n + k) b P' Q' := by
  intro es hes
  rcases hx es hes with ⟨a, es', c, h1, h2, h3, hp⟩ | ⟨es', c, h2, h3, h4⟩ | ⟨h1, c, h2, h3⟩
  · rw [S3M.run_bind h3]
    rcases hf a c hp es' (fun e he => hes e (h1.subset he)) with ⟨a', es'', c', g1, g2, g3, gp⟩ | ⟨es'', c', g2, g3, e, g4, g5⟩ | ⟨g1, c', g2, g3⟩
    · exact .inl ⟨a', es'', c', g1.trans h1, by omega, g3, gp⟩
    · exact .inr (.inl ⟨es'', c', g2, g3, e, h1.subset g4, g5⟩)
    · exact .inr (.inr ⟨by omega, c', g2, g3⟩)
  · exact .inr (.inl ⟨es', c, by rw [S3M.bind_eq, h2], hQ c h3, h4⟩)
  · exact .inr (.inr ⟨by omega, c, by rw [S3M.bind_eq, h2], hQ c h3⟩)

theorem mono {x : S3M α} {n k : Nat} {P P' : α → Bucket → Prop} {Q Q' : Bucket → Prop} (h : x.Ends n b P Q) (hn : n ≤ k)
    (hP : ∀ a c, P a c → P' a c) (hQ : ∀ c, Q c → Q' c) : x.Ends k b P' Q' := by
  intro es hes
  rcases h es hes with ⟨a, es', c, h1, h2, h3, hp⟩ | ⟨es', c, h2, h3, h4⟩ | ⟨h1, c, h2, h3⟩
  · exact .inl ⟨a, es', c, h1, by omega, h3, hP a c hp⟩
  · exact .inr (.inl ⟨es', c, h2, hQ c h3, h4⟩)
  · exact .inr (.inr ⟨by omega, c, h2, hQ c h3⟩)

/-- what is known of all calls that return -/
theorem returns {x : S3M α} {n : Nat} {P P' : α → Bucket → Prop} {Q : Bucket → Prop} (h : x.Ends n b P Q)
    (hP : ∀ es a w, (∀ e ∈ es, e.Reliable) → x ⟨es, b⟩ = (some (.ok a), w) → P' a w.bucket) : x.Ends n b P' Q := by
  intro es hes
  rcases h es hes with ⟨a, es', c, h1, h2, h3, hp⟩ | h | h
  · exact .inl ⟨a, es', c, h1, h2, h3, hP es a _ hes h3⟩
  · exact .inr (.inl h)
  · exact .inr (.inr h)

end S3M.Ends

end Z5
