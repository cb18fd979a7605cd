import Verif.Proofs.Twin
import Verif.Proofs.Outcome
/-! # Two correctly rounded configurations: the outcome of every formula -/

set_option linter.unusedSectionVars false

namespace BI.Twin
open Set BI

section
variable {T : Type} [Num T] [Val T] [NumLaws T] (V W : Env T)

/-- One operation in two configurations. -/
def Pick (q q' : Res (Itv T)) : Prop := (∃ z z', Same z z' ∧ q = .ok z ∧ q' = .ok z') ∨ q = emptyI V.C ∧ q' = emptyI W.C

/-- A formula in two configurations: the same bounds, or an empty interval was created in both. -/
def Fate (h : Prop) (N : ℕ) (a : ℕ → Policies (M V.ctl.W) T → M V.ctl.W (Itv T)) (a' : ℕ → Policies (M W.ctl.W) T → M W.ctl.W (Itv T))
    (q q' : ℕ → Res (Itv T)) : Prop :=
  (∃ z z', Same z z' ∧ ∀ fuel ≥ N, Fine V (a fuel) (q fuel) z ∧ Fine W (a' fuel) (q' fuel) z') ∨
  ∀ fuel ≥ N, Gone V h Void (a fuel) (q fuel) ∧ Gone W h Void (a' fuel) (q' fuel)

variable {V W} {S : Set ℝ} {q q' : Res (Itv T)} {x x' y y' : Itv T}

theorem Same.nonempty (h : Same x x') : (γ x).Nonempty := by
  obtain ⟨a, b, h1, -⟩ := h
  exact h1.nonempty

theorem Same.nonempty' (h : Same x x') : (γ x').Nonempty := by
  obtain ⟨a, b, -, h1⟩ := h
  exact h1.nonempty

theorem pick_of (h1 : S.Nonempty → Refine.Nest S q q' ∧ Refine.Nest S q' q) (h2 : S = ∅ → q = emptyI V.C) (h3 : S = ∅ → q' = emptyI W.C) :
    Pick V W q q' := by
  rcases S.eq_empty_or_nonempty with h | h
  · exact .inr ⟨h2 h, h3 h⟩
  · obtain ⟨z, z', k1, k2, -, k3⟩ := Both.of_nest h (h1 h).1 (h1 h).2
    exact .inl ⟨z, z', k3, k1 0 le_rfl, k2 0 le_rfl⟩

variable {h : Prop} {N N' : ℕ} {a b : ℕ → Policies (M V.ctl.W) T → M V.ctl.W (Itv T)} {a' b' : ℕ → Policies (M W.ctl.W) T → M W.ctl.W (Itv T)}
  {q q' r r' : ℕ → Res (Itv T)}

theorem Fate.step {f : Policies (M V.ctl.W) T → Itv T → M V.ctl.W (Itv T)} {f' : Policies (M W.ctl.W) T → Itv T → M W.ctl.W (Itv T)}
    {g g' : Itv T → Res (Itv T)} (H : Fate V W h N a a' q q') (hg : ∀ x x', Same x x' → Pick V W (g x) (g' x'))
    (hs : ∀ x {I J : Inv V.ctl.W} {P : Policies (M V.ctl.W) T}, PSim I J P V.B V.C → Sim I (f P x) (g x))
    (hs' : ∀ x {I J : Inv W.ctl.W} {P : Policies (M W.ctl.W) T}, PSim I J P W.B W.C → Sim I (f' P x) (g' x))
    (hv : h → V.checks.forbidsEmpty = false → ∀ x, Void x → ∃ z, g x = .ok z ∧ Void z)
    (hv' : h → W.checks.forbidsEmpty = false → ∀ x, Void x → ∃ z, g' x = .ok z ∧ Void z) :
    Fate V W h N (fun n P => a n P >>= f P) (fun n P => a' n P >>= f' P) (fun n => q n >>= g) (fun n => q' n >>= g') := by
  rcases H with ⟨x, x', hx, H⟩ | H
  · rcases hg x x' hx with ⟨z, z', hz, h1, h2⟩ | ⟨h1, h2⟩
    · exact .inl ⟨z, z', hz, fun n hn => ⟨(H n hn).1.bind (.of_sim h1 (hs x)), (H n hn).2.bind (.of_sim h2 (hs' x'))⟩⟩
    · exact .inr fun n hn => ⟨(H n hn).1.bind_gone (.of_empty h1 (hs x)), (H n hn).2.bind_gone (.of_empty h2 (hs' x'))⟩
  · exact .inr fun n hn => ⟨(H n hn).1.bind fun hE hh x hx => hv hh hE x hx, (H n hn).2.bind fun hE hh x hx => hv' hh hE x hx⟩

theorem Fate.step₂ {f : Policies (M V.ctl.W) T → Itv T → Itv T → M V.ctl.W (Itv T)}
    {f' : Policies (M W.ctl.W) T → Itv T → Itv T → M W.ctl.W (Itv T)} {g g' : Itv T → Itv T → Res (Itv T)}
    (H : Fate V W h N a a' q q') (H' : Fate V W h N' b b' r r')
    (hg : ∀ x x' y y', Same x x' → Same y y' → Pick V W (g x y) (g' x' y'))
    (hs : ∀ x y {I J : Inv V.ctl.W} {P : Policies (M V.ctl.W) T}, PSim I J P V.B V.C → Sim I (f P x y) (g x y))
    (hs' : ∀ x y {I J : Inv W.ctl.W} {P : Policies (M W.ctl.W) T}, PSim I J P W.B W.C → Sim I (f' P x y) (g' x y))
    (hv : h → V.checks.forbidsEmpty = false → ∀ x y, Void x ∨ Void y → ∃ z, g x y = .ok z ∧ Void z)
    (hv' : h → W.checks.forbidsEmpty = false → ∀ x y, Void x ∨ Void y → ∃ z, g' x y = .ok z ∧ Void z) :
    Fate V W h (max N N') (fun n P => BI.pair (a n P) (b n P) >>= fun p => f P p.1 p.2)
      (fun n P => BI.pair (a' n P) (b' n P) >>= fun p => f' P p.1 p.2)
      (fun n => BI.pair (q n) (r n) >>= fun p => g p.1 p.2) (fun n => BI.pair (q' n) (r' n) >>= fun p => g' p.1 p.2) := by
  have l : ∀ {n}, n ≥ max N N' → n ≥ N := fun h => (le_max_left _ _).trans h
  have m : ∀ {n}, n ≥ max N N' → n ≥ N' := fun h => (le_max_right _ _).trans h
  have gone : ∀ {n : ℕ}, Gone V h (fun p : Itv T × Itv T => Void p.1 ∨ Void p.2) (fun P => BI.pair (a n P) (b n P)) (BI.pair (q n) (r n)) →
      Gone V h Void (fun P => BI.pair (a n P) (b n P) >>= fun p => f P p.1 p.2) (BI.pair (q n) (r n) >>= fun p => g p.1 p.2) :=
    fun H => H.bind fun hE hh p hp => hv hh hE p.1 p.2 hp
  have gone' : ∀ {n : ℕ}, Gone W h (fun p : Itv T × Itv T => Void p.1 ∨ Void p.2) (fun P => BI.pair (a' n P) (b' n P)) (BI.pair (q' n) (r' n)) →
      Gone W h Void (fun P => BI.pair (a' n P) (b' n P) >>= fun p => f' P p.1 p.2) (BI.pair (q' n) (r' n) >>= fun p => g' p.1 p.2) :=
    fun H => H.bind fun hE hh p hp => hv' hh hE p.1 p.2 hp
  rcases H with ⟨x, x', hx, H⟩ | H <;> rcases H' with ⟨y, y', hy, H'⟩ | H'
  · rcases hg x x' y y' hx hy with ⟨z, z', hz, h1, h2⟩ | ⟨h1, h2⟩
    · exact .inl ⟨z, z', hz, fun n hn => ⟨((H n (l hn)).1.pair (H' n (m hn)).1).bind (.of_sim h1 (hs x y)),
        ((H n (l hn)).2.pair (H' n (m hn)).2).bind (.of_sim h2 (hs' x' y'))⟩⟩
    · exact .inr fun n hn => ⟨((H n (l hn)).1.pair (H' n (m hn)).1).bind_gone (.of_empty h1 (hs x y)),
        ((H n (l hn)).2.pair (H' n (m hn)).2).bind_gone (.of_empty h2 (hs' x' y'))⟩
  · exact .inr fun n hn => ⟨gone (.pair_right (H n (l hn)).1 (H' n (m hn)).1), gone' (.pair_right (H n (l hn)).2 (H' n (m hn)).2)⟩
  · exact .inr fun n hn => ⟨gone ((H n (l hn)).1.pair_left (H' n (m hn)).1), gone' ((H n (l hn)).2.pair_left (H' n (m hn)).2)⟩
  · exact .inr fun n hn => ⟨gone ((H n (l hn)).1.pair (H' n (m hn)).1), gone' ((H n (l hn)).2.pair (H' n (m hn)).2)⟩

variable {K K' : PiConst T}

theorem Fn.I_pick (f : Fn) (hv : ∃ s : V.State, V.Valid s) (hw : ∃ s : W.State, W.Valid s) (hV : V.Tight) (hW : W.Tight)
    (hf : Neighbours K ∧ V.FnOk (IsRoundDown T) (IsRoundUp T) f.uses ∧ (f.unbounded = true → InfBase T) ∧ (f.simple = false → V.IntOk ∧ IeeeBase T))
    (hf' : Neighbours K' ∧ W.FnOk (IsRoundDown T) (IsRoundUp T) f.uses ∧ (f.unbounded = true → InfBase T) ∧ (f.simple = false → W.IntOk ∧ IeeeBase T))
    (ha : f ≠ .atanh) (hx : Same x x') :
    ∃ N, ((f.uses == .cos) = false → N = 0) ∧
      ((∃ z z', Same z z' ∧ ∀ n ≥ N, f.I K n V.pp x = .ok z ∧ f.I K' n W.pp x' = .ok z') ∨
        ∀ n, f.I K n V.pp x = emptyI V.C ∧ f.I K' n W.pp x' = emptyI W.C) := by
  rcases (γ x ∩ f.dom).eq_empty_or_nonempty with h | h
  · by_cases hs : f.simple = true
    · exact ⟨0, fun _ => rfl, .inr fun n => ⟨Fn.I_outside V hs hx.nonempty h fun h => absurd h ha,
        Fn.I_outside W hs hx.nonempty' (hx.gamma ▸ h) fun h => absurd h ha⟩⟩
    · cases f with
      | tan =>
        obtain ⟨hK, hc, hi, hs⟩ := hf
        obtain ⟨hK', hc', -, hs'⟩ := hf'
        obtain ⟨a, b, ix, ix'⟩ := hx
        obtain ⟨z, z', h1, h2, h3⟩ := tanI_twin ⟨hV, (hs rfl).1, hc⟩ ⟨hW, (hs' rfl).1, hc'⟩ (hs rfl).2 hK.brackets hK.pos (.of hK hK')
          (hi rfl) ix ix'
        exact ⟨0, fun _ => rfl, .inl ⟨z, z', h3, fun _ _ => ⟨h1, h2⟩⟩⟩
      | sin => exact absurd h (by rw [show Fn.sin.dom = univ from rfl, inter_univ]; exact hx.nonempty.ne_empty)
      | cos => exact absurd h (by rw [show Fn.cos.dom = univ from rfl, inter_univ]; exact hx.nonempty.ne_empty)
      | _ => exact absurd rfl hs
  · obtain ⟨N, h1, z, z', h2, h3, -, h4⟩ := Fn.I_twin f hv hw hV hW hf hf' h hx
    exact ⟨N, h1, .inl ⟨z, z', h4, fun n hn => ⟨h2 n hn, h3 n hn⟩⟩⟩

theorem Expr.eval_fate (hv : ∃ s : V.State, V.Valid s) (hw : ∃ s : W.State, W.Valid s) (hV : V.Tight) (hW : W.Tight)
    {ρ ρ' : ℕ → Itv T} (hρ : ∀ i, Same (ρ i) (ρ' i)) (e : Expr T) (hs : e.Exacting V K (InfBase T)) (hs' : e.Exacting W K' (InfBase T))
    (hf : e.Finite) (h : Prop) (hh : h → e.hullFree = true) :
    ∃ N, (e.nests = false → N = 0) ∧ Fate V W h N (fun n P => e.eval K n P ρ) (fun n P => e.eval K' n P ρ')
      (fun n => e.eval K n V.pp ρ) (fun n => e.eval K' n W.pp ρ') := by
  have hφ : Lossless (id : T → T) := fun _ => rfl
  induction e with
  | var i => exact ⟨0, fun _ => rfl, .inl ⟨ρ i, ρ' i, hρ i, fun _ _ => ⟨.of_sim rfl fun _ => Sim.pure _, .of_sim rfl fun _ => Sim.pure _⟩⟩⟩
  | num t =>
    obtain ⟨r, hr⟩ := hf
    obtain ⟨z, hz, -, -, e⟩ := C36_num V hr
    obtain ⟨z', hz', -, -, e'⟩ := C36_num W hr
    have sim : ∀ (U : Env T) {k : PiConst T} {σ : ℕ → Itv T} {n : ℕ} {I J : Inv U.ctl.W} {P : Policies (M U.ctl.W) T}, PSim I J P U.B U.C →
        Sim I ((Expr.num t).eval k n P σ) ((Expr.num t).eval k n U.pp σ) := fun U {_ _ _ _ _ _} hP => by
      unfold Expr.eval; rw [hP.chk]; exact Sim.lift _
    exact ⟨0, fun _ => rfl, .inl ⟨z, z', .of_gamma (e.trans e'.symm) (by rw [e]; exact ⟨r, rfl⟩), fun _ _ =>
      ⟨.of_sim hz (sim V), .of_sim hz' (sim W)⟩⟩⟩
  | un o e ih =>
    obtain ⟨ho, hS, hs⟩ := hs
    obtain ⟨-, hS', hs'⟩ := hs'
    obtain ⟨N, h1, h2⟩ := ih hs hs' hf hh
    refine ⟨N, h1, h2.step (f := fun P x => o.I P x) (f' := fun P x => o.I P x) (g := fun x => o.I V.pp x) (g' := fun x => o.I W.pp x)
      (fun x x' hxx => ?_) (fun x _ _ _ h => UnOp.I_sim h o x) (fun x _ _ _ h => UnOp.I_sim h o x)
      (fun _ hE x hx => UnOp.I_void V hE o hx) fun _ hE x hx => UnOp.I_void W hE o hx⟩
    refine pick_of (S := {r | ∃ a ∈ γ x, o.Rel a r}) (fun ⟨r, a, ha, hr⟩ => ⟨?_, ?_⟩) (UnOp.I_empty V o hxx.nonempty)
      fun h => UnOp.I_empty W o hxx.nonempty' (hxx.gamma ▸ h)
    · exact Refine.UnOp.I_nest hφ hv hW.directed hV o ho ho (fun h => (hS' h).mono (fun h => h.2.1) fun h => h.2.1) hS
        ⟨a, ha, r, hr⟩ hxx.gamma.subset
    · have := Refine.UnOp.I_nest hφ hw hV.directed hW o ho ho (fun h => (hS h).mono (fun h => h.2.1) fun h => h.2.1) hS'
        ⟨a, hxx.gamma ▸ ha, r, hr⟩ hxx.gamma.symm.subset
      rwa [← hxx.gamma] at this
  | pow e k ih =>
    obtain ⟨hk, ho, hs⟩ := hs
    obtain ⟨-, -, hs'⟩ := hs'
    obtain ⟨N, h1, h2⟩ := ih hs hs' hf hh
    refine ⟨N, h1, h2.step (f := fun P x => powI P x k) (f' := fun P x => powI P x k) (g := fun x => powI V.pp x k) (g' := fun x => powI W.pp x k)
      (fun x x' hxx => ?_) (fun x _ _ _ h => powI_sim h x k) (fun x _ _ _ h => powI_sim h x k)
      (fun _ hE x hx => powI_void V hE k hx) fun _ hE x hx => powI_void W hE k hx⟩
    refine pick_of (S := {r | ∃ a ∈ γ x, (a ≠ 0 ∨ 0 < k) ∧ r = a ^ k}) (fun ⟨r, a, ha, hr, _⟩ => ⟨?_, ?_⟩)
      (fun h => pow_empty V hV.signed hk hxx.nonempty h) fun h => pow_empty W hW.signed hk hxx.nonempty' (hxx.gamma ▸ h)
    · exact Refine.powI_nest hφ hV hW.signed hk ho ho ⟨a, ha, hr⟩ hxx.gamma.subset
    · have := Refine.powI_nest hφ hW hV.signed hk ho ho ⟨a, hxx.gamma ▸ ha, hr⟩ hxx.gamma.symm.subset
      rwa [← hxx.gamma] at this
  | bin o e₁ e₂ ih₁ ih₂ =>
    obtain ⟨ho, hs₁, hs₂⟩ := hs
    obtain ⟨-, hs₁', hs₂'⟩ := hs'
    have hh' : h → o ≠ .hull ∧ e₁.hullFree = true ∧ e₂.hullFree = true := fun h => by
      have := hh h
      simp only [Expr.hullFree, Bool.and_eq_true, bne_iff_ne] at this
      exact ⟨this.1.1, this.1.2, this.2⟩
    obtain ⟨N, h1, h2⟩ := ih₁ hs₁ hs₁' hf.1 fun h => (hh' h).2.1
    obtain ⟨N', k1, k2⟩ := ih₂ hs₂ hs₂' hf.2 fun h => (hh' h).2.2
    refine ⟨max N N', fun h => ?_, h2.step₂ (f := fun P x y => o.II P x y) (f' := fun P x y => o.II P x y) (g := fun x y => o.II V.pp x y)
      (g' := fun x y => o.II W.pp x y) k2 (fun x x' y y' hxx hyy => ?_) (fun x y _ _ _ h => BinOp.II_sim h o x y)
      (fun x y _ _ _ h => BinOp.II_sim h o x y) (fun h hE x y hx => BinOp.II_void V hE o (hh' h).1 hx)
      fun h hE x y hx => BinOp.II_void W hE o (hh' h).1 hx⟩
    · have := (Bool.or_eq_false_iff.1 (show (e₁.nests || e₂.nests) = false from h))
      rw [h1 this.1, k1 this.2]; rfl
    · refine pick_of (S := {r | ∃ a ∈ γ x, ∃ b ∈ γ y, o.Rel a b r}) (fun ⟨r, a, ha, b, hb, hr⟩ => ⟨?_, ?_⟩)
        (BinOp.II_empty V o hxx.nonempty hyy.nonempty)
        fun h => BinOp.II_empty W o hxx.nonempty' hyy.nonempty' (hxx.gamma ▸ hyy.gamma ▸ h)
      · exact Refine.BinOp.II_nest hφ hv hW.directed hV o ho ho ⟨a, ha, b, hb, r, hr⟩ hxx.gamma.subset hyy.gamma.subset
      · have := Refine.BinOp.II_nest hφ hw hV.directed hW o ho ho ⟨a, hxx.gamma ▸ ha, b, hyy.gamma ▸ hb, r, hr⟩
          hxx.gamma.symm.subset hyy.gamma.symm.subset
        rwa [← hxx.gamma, ← hyy.gamma] at this
  | binL o t e ih =>
    obtain ⟨ho, hs⟩ := hs
    obtain ⟨-, hs'⟩ := hs'
    obtain ⟨⟨c, ht⟩, hf⟩ := hf
    have hh' : h → o ≠ .hull ∧ e.hullFree = true := fun h => by
      have := hh h
      simpa only [Expr.hullFree, Bool.and_eq_true, bne_iff_ne] using this
    obtain ⟨N, h1, h2⟩ := ih hs hs' hf fun h => (hh' h).2
    refine ⟨N, h1, h2.step (f := fun P x => o.TI P t x) (f' := fun P x => o.TI P t x) (g := fun x => o.TI V.pp t x) (g' := fun x => o.TI W.pp t x)
      (fun x x' hxx => ?_) (fun x _ _ _ h => BinOp.TI_sim h o t x) (fun x _ _ _ h => BinOp.TI_sim h o t x)
      (fun h hE x hx => BinOp.TI_void V hE o (hh' h).1 (by rw [ht]; simp) hx) fun h hE x hx => BinOp.TI_void W hE o (hh' h).1 (by rw [ht]; simp) hx⟩
    refine pick_of (S := {q | ∃ b ∈ γ x, o.Rel c b q}) (fun ⟨r, b, hb, hr⟩ => ⟨?_, ?_⟩) (BinOp.TI_empty V o ht hxx.nonempty)
      fun h => BinOp.TI_empty W o ht hxx.nonempty' (hxx.gamma ▸ h)
    · exact Refine.BinOp.TI_nest hφ hv hW.directed hV o ho ho ht ⟨b, hb, r, hr⟩ hxx.gamma.subset
    · have := Refine.BinOp.TI_nest hφ hw hV.directed hW o ho ho ht ⟨b, hxx.gamma ▸ hb, r, hr⟩ hxx.gamma.symm.subset
      rwa [← hxx.gamma] at this
  | binR o e t ih =>
    obtain ⟨hf, ⟨c, ht⟩⟩ := hf
    have hh' : h → o ≠ .hull ∧ e.hullFree = true := fun h => by
      have := hh h
      simpa only [Expr.hullFree, Bool.and_eq_true, bne_iff_ne] using this
    obtain ⟨N, h1, h2⟩ := ih hs hs' hf fun h => (hh' h).2
    refine ⟨N, h1, h2.step (f := fun P x => o.IT P x t) (f' := fun P x => o.IT P x t) (g := fun x => o.IT V.pp x t) (g' := fun x => o.IT W.pp x t)
      (fun x x' hxx => ?_) (fun x _ _ _ h => BinOp.IT_sim h o x t) (fun x _ _ _ h => BinOp.IT_sim h o x t)
      (fun h hE x hx => BinOp.IT_void V hE o (hh' h).1 (by rw [ht]; simp) hx) fun h hE x hx => BinOp.IT_void W hE o (hh' h).1 (by rw [ht]; simp) hx⟩
    refine pick_of (S := {q | ∃ a ∈ γ x, o.Rel a c q}) (fun ⟨r, a, ha, hr⟩ => ⟨?_, ?_⟩) (BinOp.IT_empty V o hxx.nonempty ht)
      fun h => BinOp.IT_empty W o hxx.nonempty' ht (hxx.gamma ▸ h)
    · exact Refine.BinOp.IT_nest hφ hv hW.directed hV o ht ⟨a, ha, r, hr⟩ hxx.gamma.subset
    · have := Refine.BinOp.IT_nest hφ hw hV.directed hW o ht ⟨a, hxx.gamma ▸ ha, r, hr⟩ hxx.gamma.symm.subset
      rwa [← hxx.gamma] at this
  | inter e₁ e₂ ih₁ ih₂ =>
    have hh' : h → e₁.hullFree = true ∧ e₂.hullFree = true := fun h => by
      have := hh h
      simpa only [Expr.hullFree, Bool.and_eq_true] using this
    obtain ⟨N, h1, h2⟩ := ih₁ hs.1 hs'.1 hf.1 fun h => (hh' h).1
    obtain ⟨N', k1, k2⟩ := ih₂ hs.2 hs'.2 hf.2 fun h => (hh' h).2
    refine ⟨max N N', fun h => ?_, h2.step₂ (f := fun P x y => lift (intersect P.chk x y)) (f' := fun P x y => lift (intersect P.chk x y))
      (g := fun x y => intersect V.C x y) (g' := fun x y => intersect W.C x y) k2 (fun x x' y y' hxx hyy => ?_) (fun x y _ _ _ h => ?_)
      (fun x y _ _ _ h => ?_) (fun h hE x y hx => intersect_void V hE hx) fun h hE x y hx => intersect_void W hE hx⟩
    · have := (Bool.or_eq_false_iff.1 (show (e₁.nests || e₂.nests) = false from h))
      rw [h1 this.1, k1 this.2]; rfl
    · rcases (γ x ∩ γ y).eq_empty_or_nonempty with h | h
      · exact .inr ⟨intersect_empty V hxx.nonempty hyy.nonempty h, intersect_empty W hxx.nonempty' hyy.nonempty' (hxx.gamma ▸ hyy.gamma ▸ h)⟩
      · obtain ⟨z, hz, e⟩ := C23_intersect V h
        obtain ⟨z', hz', e'⟩ := C23_intersect W (x := x') (y := y') (hxx.gamma ▸ hyy.gamma ▸ h)
        exact .inl ⟨z, z', .of_gamma (by rw [e, e', hxx.gamma, hyy.gamma]) (e ▸ h), hz, hz'⟩
    · rw [h.chk]; exact Sim.lift _
    · rw [h.chk]; exact Sim.lift _
  | fn f e ih =>
    obtain ⟨hf₁, hs⟩ := hs
    obtain ⟨hf₂, hs'⟩ := hs'
    obtain ⟨N, h1, h2⟩ := ih hs hs' hf.2 hh
    have sim := fun (U : Env T) (k : PiConst T) x n {I J : Inv U.ctl.W} {P : Policies (M U.ctl.W) T} (h : PSim I J P U.B U.C) =>
      Fn.I_sim (K := k) (fuel := n) U h f x
    have hn : ∀ {n}, (Expr.fn f e).nests = false → (((f.uses == .cos) = false → n = 0) → max N n = 0) := fun h h' => by
      have := (Bool.or_eq_false_iff.1 (show (f.uses == .cos || e.nests) = false from h))
      rw [h1 this.2, h' this.1]; rfl
    rcases h2 with ⟨x, x', hx, H⟩ | H
    · obtain ⟨N', k1, k2⟩ := Fn.I_pick f hv hw hV hW hf₁ hf₂ hf.1 hx
      refine ⟨max N N', fun h => hn h k1, ?_⟩
      have l : ∀ {n}, n ≥ max N N' → n ≥ N := fun h => (le_max_left _ _).trans h
      have m : ∀ {n}, n ≥ max N N' → n ≥ N' := fun h => (le_max_right _ _).trans h
      rcases k2 with ⟨z, z', hz, k2⟩ | k2
      · exact .inl ⟨z, z', hz, fun n hn => ⟨(H n (l hn)).1.bind (.of_sim (k2 n (m hn)).1 (sim V K x n)),
          (H n (l hn)).2.bind (.of_sim (k2 n (m hn)).2 (sim W K' x' n))⟩⟩
      · exact .inr fun n hn => ⟨(H n (l hn)).1.bind_gone (.of_empty (k2 n).1 (sim V K x n)),
          (H n (l hn)).2.bind_gone (.of_empty (k2 n).2 (sim W K' x' n))⟩
    · refine ⟨max N (if f.uses = .cos then 1 else 0), fun h => hn h fun h => ?_, .inr fun n hn => ?_⟩
      · rw [if_neg (by simpa using h)]
      · have hp : f.uses = .cos → 0 < n := fun h => by
          have := (le_max_right _ _).trans hn
          rw [if_pos h] at this; exact this
        have hN := (le_max_left _ _).trans hn
        exact ⟨(H n hN).1.bind fun hE _ x hx => Fn.I_void V hE f K hp hx, (H n hN).2.bind fun hE _ x hx => Fn.I_void W hE f K' hp hx⟩
end

end BI.Twin
