import Verif.Props.Trig
import Mathlib.Data.Int.Interval
import Mathlib.Data.Set.Finite.Lattice
/-! # C20: a depth of the recursion that is enough for all intervals of a format -/

namespace BI
open Set

/-- A format has finitely many numbers. -/
instance Fl.finite (f : Fmt) : Finite (Fl f) := by
  have hfin : Finite {q : ℚ // q ≠ 0 ∧ Rep f q} := by
    refine Set.Finite.subset (((finite_Icc (-(2 ^ f.p) : ℤ) (2 ^ f.p)).image2 (fun m e : ℤ => (m : ℚ) * (2 : ℚ) ^ e) (finite_Icc f.emin f.emax))) ?_
    rintro q ⟨-, m, e, h1, h2, h3, rfl⟩
    have := abs_lt.1 h1
    exact ⟨m, ⟨this.1.le, this.2.le⟩, e, ⟨h2, h3⟩, rfl⟩
  refine Finite.of_surjective (fun k : Unit ⊕ Bool ⊕ Bool ⊕ {q : ℚ // q ≠ 0 ∧ Rep f q} => (match k with
    | .inl _ => .nan
    | .inr (.inl s) => .inf s
    | .inr (.inr (.inl s)) => .zero s
    | .inr (.inr (.inr q)) => .nz q.1 q.2 : Fl f)) ?_
  rintro (_ | s | s | ⟨q, h⟩)
  · exact ⟨.inl (), rfl⟩
  · exact ⟨.inr (.inl s), rfl⟩
  · exact ⟨.inr (.inr (.inl s)), rfl⟩
  · exact ⟨.inr (.inr (.inr ⟨q, h⟩)), rfl⟩

instance Itv.finite (T : Type) [Finite T] : Finite (Itv T) :=
  Finite.of_injective (fun x : Itv T => (x.lower, x.upper)) fun x y h => by
    cases x; cases y; simp only [Prod.mk.injEq] at h; rw [h.1, h.2]

theorem uniform_depth {α : Type} [Finite α] {p : α → ℕ → Prop} (h : ∀ x, ∃ N, ∀ n ≥ N, p x n) : ∃ N, ∀ n ≥ N, ∀ x, p x n := by
  choose N hN using h
  obtain ⟨B, hB⟩ := (finite_range N).bddAbove
  exact ⟨B, fun n hn x => hN x n ((hB ⟨x, rfl⟩).trans hn)⟩

section
variable {f : Fmt} (V : Env (Fl f)) {K : PiConst (Fl f)}

/-- Some depth is enough for the cosine of all intervals. -/
theorem C20_cos_depth (hk : V.kind ≠ .exact) (hf : V.FnOk LeB GeB .cos) (hK : Brackets K) (hK' : PiPos K) :
    ∃ N, ∀ fuel ≥ N, ∀ x : Itv (Fl f), (γ x).Nonempty → V.Returns (cosI K fuel V.P x) fun z => ∀ r ∈ γ x, Real.cos r ∈ γ z := by
  refine uniform_depth fun x => ?_
  by_cases hx : (γ x).Nonempty
  · obtain ⟨z, N, h1, h2⟩ := C20_cos V (V.fl_tight hk) (V.fl_intOk hk) fl_ieee hf hK hK' hx
    exact ⟨N, fun n hn _ => (h2 n hn).mono fun w hw => by rw [hw]; exact h1⟩
  · exact ⟨0, fun _ _ h => absurd h hx⟩

theorem C20_sin_depth (hk : V.kind ≠ .exact) (hf : V.FnOk LeB GeB .cos) (hK : Brackets K) (hK' : PiPos K) :
    ∃ N, ∀ fuel ≥ N, ∀ x : Itv (Fl f), (γ x).Nonempty → V.Returns (sinI K fuel V.P x) fun z => ∀ r ∈ γ x, Real.sin r ∈ γ z := by
  refine uniform_depth fun x => ?_
  by_cases hx : (γ x).Nonempty
  · obtain ⟨z, N, h1, h2⟩ := C20_sin V (V.fl_tight hk) (V.fl_intOk hk) fl_ieee hf hK hK' hx
    exact ⟨N, fun n hn _ => (h2 n hn).mono fun w hw => by rw [hw]; exact h1⟩
  · exact ⟨0, fun _ _ h => absurd h hx⟩
end

end BI
