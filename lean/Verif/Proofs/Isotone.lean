import Verif.Proofs.Expr
import Verif.Props.Sharp
import Verif.Props.Elem
/-! # Evaluation of expressions on nested intervals -/

set_option linter.unusedSectionVars false

namespace BI
open Set

section
variable {T : Type} [Num T] [Val T] [NumLaws T] {V : Env T} {x x' y y' : Itv T} {t : T}

/-- Two outcomes: the first encloses `S`, the second encloses the first. -/
def NestedPair (S : Set ℝ) (r r' : Res (Itv T)) : Prop := ∃ z z', r = .ok z ∧ r' = .ok z' ∧ S ⊆ γ z ∧ γ z ⊆ γ z'

omit [NumLaws T] in
theorem NestedPair.of {S : Set ℝ} {r r' : Res (Itv T)} (h : ∃ z z', r = .ok z ∧ r' = .ok z' ∧ γ z ⊆ γ z')
    (h' : Post True r fun z => S ⊆ γ z) : NestedPair S r r' := by
  obtain ⟨z, z', rfl, h1, h2⟩ := h
  exact ⟨z, z', rfl, h1, h', h2⟩

omit [NumLaws T] in
/-- Exact images. -/
theorem NestedPair.image {S S₁ S₂ : Set ℝ} {r r' : Res (Itv T)} (h : ∃ z, r = .ok z ∧ γ z = S₁) (h' : ∃ z, r' = .ok z ∧ γ z = S₂)
    (h1 : S ⊆ S₁) (h2 : S₁ ⊆ S₂) : NestedPair S r r' := by
  obtain ⟨z, h, rfl⟩ := h
  obtain ⟨z', h', rfl⟩ := h'
  exact ⟨z, z', h, h', h1, h2⟩

/-- From the machine to the outcome it simulates. -/
theorem Env.outcomes (hV : V.Directed) (hv : ∃ s : V.State, V.Valid s) {a a' : M V.ctl.W (Itv T)} {r r' : Res (Itv T)}
    (hs : ∀ J, PSim (outer V.laws) J V.P V.B V.C → Sim (outer V.laws) a r)
    (hs' : ∀ J, PSim (outer V.laws) J V.P V.B V.C → Sim (outer V.laws) a' r')
    (h : V.Returns a fun z => V.Returns a' fun z' => γ z ⊆ γ z') : ∃ z z', r = .ok z ∧ r' = .ok z' ∧ γ z ⊆ γ z' := by
  obtain ⟨s, hv⟩ := hv
  obtain ⟨J, hJ⟩ := V.sim hV.kindOk
  obtain ⟨z, h1, -, h2⟩ := h s hv
  obtain ⟨z', h3, -, h4⟩ := h2 s hv
  exact ⟨z, z', (hs J hJ s hv).1.symm.trans h1, (hs' J hJ s hv).1.symm.trans h3, h4⟩

variable (hv : ∃ s : V.State, V.Valid s) (hV : V.Tight)
include hv hV

theorem UnOp.I_nested (o : UnOp) (hi : o = .inv → InfBase T) (hS : o = .sqrt → V.SqrtOk (IsRoundDown T) (IsRoundUp T))
    (h : ∃ a ∈ γ x, ∃ r, o.Rel a r) (hxx : γ x ⊆ γ x') :
    NestedPair {r | ∃ a ∈ γ x, o.Rel a r} (o.I V.pp x) (o.I V.pp x') := by
  obtain ⟨a, ha, r, hr⟩ := h
  have hx : (γ x).Nonempty := ⟨a, ha⟩
  have hx' := hx.mono hxx
  have hD := hV.directed
  have hS' : o = .sqrt → V.SqrtOk LeB GeB := fun h => (hS h).mono (fun h => h.2.1) fun h => h.2.1
  refine .of ?_ ((UnOp.I_post hD o hi hS' ⟨a, ha, r, hr⟩).mono fun z hz r ⟨a, ha, h⟩ => hz a ha r h)
  have out : ∀ {h : V.Returns (o.I V.P x) fun z => V.Returns (o.I V.P x') fun z' => γ z ⊆ γ z'},
      ∃ z z', o.I V.pp x = .ok z ∧ o.I V.pp x' = .ok z' ∧ γ z ⊆ γ z' :=
    fun {h} => V.outcomes hD hv (fun _ h => UnOp.I_sim h o x) (fun _ h => UnOp.I_sim h o x') h
  cases o with
  | pos => exact ⟨x, x', rfl, rfl, hxx⟩
  | neg =>
    obtain ⟨z, h1, h2⟩ := C02_neg V hD.neg hx
    obtain ⟨z', h1', h2'⟩ := C02_neg V hD.neg hx'
    exact ⟨z, z', h1, h1', by rw [h2, h2']; exact fun r ⟨a, ha, h⟩ => ⟨a, hxx ha, h⟩⟩
  | abs => exact C13_abs V hD.neg hx hxx
  | square => exact out (h := C13_square V hV hx hxx)
  | sqrt => exact out (h := C13_sqrt V hV (hS rfl) ⟨a, ha, hr.1⟩ hxx)
  | inv => exact out (h := C13_inverse V hV (hi rfl) ⟨a, ha, hr.1⟩ hxx)

theorem BinOp.II_nested (o : BinOp) (hi : o = .div → InfBase T) (h : ∃ a ∈ γ x, ∃ b ∈ γ y, ∃ r, o.Rel a b r)
    (hxx : γ x ⊆ γ x') (hyy : γ y ⊆ γ y') :
    NestedPair {r | ∃ a ∈ γ x, ∃ b ∈ γ y, o.Rel a b r} (o.II V.pp x y) (o.II V.pp x' y') := by
  obtain ⟨a, ha, b, hb, r, hr⟩ := h
  have hx : (γ x).Nonempty := ⟨a, ha⟩
  have hx' := hx.mono hxx
  have hy : (γ y).Nonempty := ⟨b, hb⟩
  have hy' := hy.mono hyy
  have hD := hV.directed
  refine .of ?_ ((BinOp.II_post hD o hi ⟨a, ha, b, hb, r, hr⟩).mono fun z hz r ⟨a, ha, b, hb, h⟩ => hz a ha b hb r h)
  have out : ∀ {h : V.Returns (o.II V.P x y) fun z => V.Returns (o.II V.P x' y') fun z' => γ z ⊆ γ z'},
      ∃ z z', o.II V.pp x y = .ok z ∧ o.II V.pp x' y' = .ok z' ∧ γ z ⊆ γ z' :=
    fun {h} => V.outcomes hD hv (fun _ h => BinOp.II_sim h o x y) (fun _ h => BinOp.II_sim h o x' y') h
  cases o with
  | add => exact out (h := C13_add V hV hx hy hxx hyy)
  | sub => exact out (h := C13_sub V hV hx hy hxx hyy)
  | mul => exact out (h := C13_mul V hV hx hy hxx hyy)
  | div => exact out (h := C13_div V hV (hi rfl) hx ⟨b, hb, hr.1⟩ hxx hyy)
  | min =>
    obtain ⟨z, h1, h2⟩ := C29_min V hx hy
    obtain ⟨z', h1', h2'⟩ := C29_min V hx' hy'
    exact ⟨z, z', h1, h1', by rw [h2, h2']; exact fun r ⟨a, ha, b, hb, h⟩ => ⟨a, hxx ha, b, hyy hb, h⟩⟩
  | max =>
    obtain ⟨z, h1, h2⟩ := C29_max V hx hy
    obtain ⟨z', h1', h2'⟩ := C29_max V hx' hy'
    exact ⟨z, z', h1, h1', by rw [h2, h2']; exact fun r ⟨a, ha, b, hb, h⟩ => ⟨a, hxx ha, b, hyy hb, h⟩⟩
  | hull =>
    obtain ⟨z, h1, h2⟩ := C24_hull V (.inl hx) (.inl hy) hx.inl
    obtain ⟨z', h1', h2'⟩ := C24_hull V (.inl hx') (.inl hy') hx'.inl
    exact ⟨z, z', h1, h1', h2.2 z' ((union_subset_union hxx hyy).trans h2'.1)⟩

theorem BinOp.TI_nested (o : BinOp) (hi : o = .div → InfBase T) {a : ℝ} (ht : val t = some (a : EReal))
    (h : ∃ b ∈ γ y, ∃ r, o.Rel a b r) (hyy : γ y ⊆ γ y') :
    NestedPair {r | ∃ b ∈ γ y, o.Rel a b r} (o.TI V.pp t y) (o.TI V.pp t y') := by
  obtain ⟨b, hb, r, hr⟩ := h
  have hy : (γ y).Nonempty := ⟨b, hb⟩
  have hy' := hy.mono hyy
  have hD := hV.directed
  refine .of ?_ ((BinOp.TI_post hD o hi ht ⟨b, hb, r, hr⟩).mono fun z hz r ⟨b, hb, h⟩ => hz b hb r h)
  have out : ∀ {h : V.Returns (o.TI V.P t y) fun z => V.Returns (o.TI V.P t y') fun z' => γ z ⊆ γ z'},
      ∃ z z', o.TI V.pp t y = .ok z ∧ o.TI V.pp t y' = .ok z' ∧ γ z ⊆ γ z' :=
    fun {h} => V.outcomes hD hv (fun _ h => BinOp.TI_sim h o t y) (fun _ h => BinOp.TI_sim h o t y') h
  cases o with
  | add => exact out (h := (C12_add_num V hV ht hy).mono fun _ hz => (C12_add_num V hV ht hy').mono fun _ hz' =>
      hz.mono hz' (image2_subset subset_rfl hyy))
  | sub => exact out (h := (C12_sub_num V hV ht hy).mono fun _ hz => (C12_sub_num V hV ht hy').mono fun _ hz' =>
      hz.mono hz' (image2_subset subset_rfl hyy))
  | mul => exact out (h := (C12_mul_num V hV ht hy).mono fun _ hz => (C12_mul_num V hV ht hy').mono fun _ hz' =>
      hz.mono hz' (image2_subset subset_rfl hyy))
  | div => exact out (h := (C52_div_num V hV (hi rfl) ht ⟨b, hb, hr.1⟩).mono fun _ hz =>
      (C52_div_num V hV (hi rfl) ht ⟨b, hyy hb, hr.1⟩).mono fun _ hz' => hz.mono hz' (quot_mono subset_rfl hyy))
  | min =>
    obtain ⟨z, h1, h2⟩ := (C29_min_num V hy ht).2
    obtain ⟨z', h1', h2'⟩ := (C29_min_num V hy' ht).2
    exact ⟨z, z', h1, h1', by rw [h2, h2']; exact fun r ⟨a, ha, h⟩ => ⟨a, hyy ha, h⟩⟩
  | max =>
    obtain ⟨z, h1, h2⟩ := (C29_max_num V hy ht).2
    obtain ⟨z', h1', h2'⟩ := (C29_max_num V hy' ht).2
    exact ⟨z, z', h1, h1', by rw [h2, h2']; exact fun r ⟨a, ha, h⟩ => ⟨a, hyy ha, h⟩⟩
  | hull =>
    obtain ⟨z, h1, h2⟩ := (C24_hull_num V (.inl hy) ht).2
    obtain ⟨z', h1', h2'⟩ := (C24_hull_num V (.inl hy') ht).2
    exact ⟨z, z', h1, h1', h2.2 z' ((union_subset_union subset_rfl hyy).trans h2'.1)⟩

theorem BinOp.IT_nested (o : BinOp) {b : ℝ} (ht : val t = some (b : EReal))
    (h : ∃ a ∈ γ x, ∃ r, o.Rel a b r) (hxx : γ x ⊆ γ x') :
    NestedPair {r | ∃ a ∈ γ x, o.Rel a b r} (o.IT V.pp x t) (o.IT V.pp x' t) := by
  obtain ⟨a, ha, r, hr⟩ := h
  have hx : (γ x).Nonempty := ⟨a, ha⟩
  have hx' := hx.mono hxx
  have hD := hV.directed
  refine .of ?_ ((BinOp.IT_post hD o ht ⟨a, ha, r, hr⟩).mono fun z hz r ⟨a, ha, h⟩ => hz a ha r h)
  have out : ∀ {h : V.Returns (o.IT V.P x t) fun z => V.Returns (o.IT V.P x' t) fun z' => γ z ⊆ γ z'},
      ∃ z z', o.IT V.pp x t = .ok z ∧ o.IT V.pp x' t = .ok z' ∧ γ z ⊆ γ z' :=
    fun {h} => V.outcomes hD hv (fun _ h => BinOp.IT_sim h o x t) (fun _ h => BinOp.IT_sim h o x' t) h
  cases o with
  | add => exact out (h := (C12_add_num' V hV ht hx).mono fun _ hz => (C12_add_num' V hV ht hx').mono fun _ hz' =>
      hz.mono hz' (image2_subset hxx subset_rfl))
  | sub => exact out (h := (C12_sub_num' V hV ht hx).mono fun _ hz => (C12_sub_num' V hV ht hx').mono fun _ hz' =>
      hz.mono hz' (image2_subset hxx subset_rfl))
  | mul => exact out (h := (C12_mul_num' V hV ht hx).mono fun _ hz => (C12_mul_num' V hV ht hx').mono fun _ hz' =>
      hz.mono hz' (image2_subset hxx subset_rfl))
  | div => exact out (h := (C12_div_num' V hV hx ht hr.1).mono fun _ hz =>
      (C12_div_num' V hV hx' ht hr.1).mono fun _ hz' => hz.mono hz' (quot_mono hxx subset_rfl))
  | min =>
    obtain ⟨z, h1, h2⟩ := (C29_min_num V hx ht).1
    obtain ⟨z', h1', h2'⟩ := (C29_min_num V hx' ht).1
    exact ⟨z, z', h1, h1', by rw [h2, h2']; exact fun r ⟨a, ha, h⟩ => ⟨a, hxx ha, h⟩⟩
  | max =>
    obtain ⟨z, h1, h2⟩ := (C29_max_num V hx ht).1
    obtain ⟨z', h1', h2'⟩ := (C29_max_num V hx' ht).1
    exact ⟨z, z', h1, h1', by rw [h2, h2']; exact fun r ⟨a, ha, h⟩ => ⟨a, hxx ha, h⟩⟩
  | hull =>
    obtain ⟨z, h1, h2⟩ := (C24_hull_num V (.inl hx) ht).1
    obtain ⟨z', h1', h2'⟩ := (C24_hull_num V (.inl hx') ht).1
    exact ⟨z, z', h1, h1', h2.2 z' ((union_subset_union hxx subset_rfl).trans h2'.1)⟩

theorem powI_nested {k : ℤ} (hk : k ≠ -2147483648) (hi : k < 0 → InfBase T) (h : ∃ a ∈ γ x, a ≠ 0 ∨ 0 < k) (hxx : γ x ⊆ γ x') :
    NestedPair {r | ∃ a ∈ γ x, (a ≠ 0 ∨ 0 < k) ∧ r = a ^ k} (powI V.pp x k) (powI V.pp x' k) := by
  obtain ⟨a, ha, ho⟩ := h
  refine .of (V.outcomes hV.directed hv (fun _ h => powI_sim h x k) (fun _ h => powI_sim h x' k)
    (C13_pow V hV hk ⟨a, ha⟩ (fun h => ⟨a, ha, ho.resolve_right (by omega)⟩) hi hxx)) ?_
  rcases powI_out (B := False) False.elim hV.signed (fun h => .inl (hi h)) hk ⟨a, ha, ho⟩ with h | ⟨_, ⟨⟨⟩, -⟩, -⟩
  exact Post.of_ok h

theorem Fn.I_nested {K : PiConst T} {fuel : ℕ} (f : Fn) (hs : f.simple = true) (hf : V.FnOk (IsRoundDown T) (IsRoundUp T) f)
    (hK : Neighbours K) (hi : f.unbounded = true → InfBase T) (h : (γ x ∩ f.dom).Nonempty) (hxx : γ x ⊆ γ x') :
    NestedPair (f.real '' (γ x ∩ f.dom)) (f.I K fuel V.pp x) (f.I K fuel V.pp x') :=
  .of (V.outcomes hV.directed hv (fun _ h => Fn.I_sim V h f x) (fun _ h => Fn.I_sim V h f x')
    (C13_elementary V hV hs hf hK hi h hxx)) ((Fn.I_post du_tight hV.neg hK.ok hs hi hf h).mono
      fun z hz => hz.encl (du_tight (T := T)).D_le (du_tight (T := T)).U_ge)

omit hv hV in
/-- A successful evaluation is what the machine does. -/
theorem Expr.eval_sim {K : PiConst T} {fuel : ℕ} {I J : Inv V.ctl.W} {P : Policies (M V.ctl.W) T} (h : PSim I J P V.B V.C)
    (ρ : ℕ → Itv T) (e : Expr T) (z : Itv T) (hz : e.eval K fuel V.pp ρ = .ok z) : Sim I (e.eval K fuel P ρ) (.ok z) := by
  have step : ∀ {a : M V.ctl.W (Itv T)} {r : Res (Itv T)} {g : Itv T → M V.ctl.W (Itv T)} {g' : Itv T → Res (Itv T)} {z : Itv T},
      (∀ x, r = .ok x → Sim I a (.ok x)) → (∀ x, Sim I (g x) (g' x)) → (r >>= g') = .ok z → Sim I (a >>= g) (.ok z) := by
    intro a r g g' z ha hg hz
    cases r with
    | error e => cases hz
    | ok x =>
      refine (Ends.bind_ok (E := fun _ => True) (.of_sim (ha x rfl) fun _ _ => trivial) (.of_sim ?_ fun _ _ => trivial)).sim
      rw [← (show g' x = .ok z from hz)]; exact hg x
  have step₂ : ∀ {a b : M V.ctl.W (Itv T)} {r s : Res (Itv T)} {g : Itv T → Itv T → M V.ctl.W (Itv T)}
      {g' : Itv T → Itv T → Res (Itv T)} {z : Itv T}, (∀ x, r = .ok x → Sim I a (.ok x)) → (∀ x, s = .ok x → Sim I b (.ok x)) →
      (∀ x y, Sim I (g x y) (g' x y)) → (pair r s >>= fun p => g' p.1 p.2) = .ok z →
      Sim I (pair a b >>= fun p => g p.1 p.2) (.ok z) := by
    intro a b r s g g' z ha hb hg hz
    cases r with
    | error e => cases hz
    | ok x =>
      cases s with
      | error e => cases hz
      | ok y =>
        refine (Ends.bind_ok (E := fun _ => True) (z := (x, y)) (Ends.pair (.of_sim (ha x rfl) fun _ _ => trivial)
          (.of_sim (hb y rfl) fun _ _ => trivial)) (.of_sim ?_ fun _ _ => trivial)).sim
        rw [← (show g' x y = .ok z from hz)]; exact hg x y
  induction e generalizing z with
  | var i => rw [← hz]; exact Sim.pure _
  | num t =>
    rw [← hz]
    change Sim I (lift (ctorT P.chk t)) (lift (ctorT V.pp.chk t))
    rw [h.chk, pure_chk]; exact Sim.lift _
  | un o e ih => exact step (g' := fun x => o.I V.pp x) ih (fun x => UnOp.I_sim h o x) hz
  | pow e k ih => exact step (g' := fun x => powI V.pp x k) ih (fun x => powI_sim h x k) hz
  | bin o e₁ e₂ ih₁ ih₂ => exact step₂ (g' := fun x y => o.II V.pp x y) (g := fun x y => o.II P x y) ih₁ ih₂ (fun x y => BinOp.II_sim h o x y) hz
  | binL o t e ih => exact step (g' := fun x => o.TI V.pp t x) ih (fun x => BinOp.TI_sim h o t x) hz
  | binR o e t ih => exact step (g' := fun x => o.IT V.pp x t) ih (fun x => BinOp.IT_sim h o x t) hz
  | inter e₁ e₂ ih₁ ih₂ =>
    exact step₂ (g' := fun x y => lift (intersect V.pp.chk x y)) (g := fun x y => lift (intersect P.chk x y)) ih₁ ih₂
      (fun x y => by rw [h.chk, pure_chk]; exact Sim.lift _) hz
  | fn f e ih => exact step (g' := fun x => f.I K fuel V.pp x) ih (fun x => Fn.I_sim V h f x) hz

theorem Expr.eval_nested {K : PiConst T} {fuel : ℕ} {ρ ρ' : ℕ → Itv T} (hρ : ∀ i, γ (ρ i) ⊆ γ (ρ' i)) (e : Expr T)
    (hs : e.Sharp V K (InfBase T)) (hd : ∃ r, e.ValueIn ρ r) :
    NestedPair {r | e.ValueIn ρ r} (e.eval K fuel V.pp ρ) (e.eval K fuel V.pp ρ') := by
  have step : ∀ {S S' : Set ℝ} {r r' : Res (Itv T)} {g : Itv T → Res (Itv T)}, NestedPair S r r' →
      (∀ x x', S ⊆ γ x → γ x ⊆ γ x' → NestedPair S' (g x) (g x')) → NestedPair S' (r >>= g) (r' >>= g) := by
    rintro S S' _ _ g ⟨z, z', rfl, rfl, h1, h2⟩ h
    exact h z z' h1 h2
  have weak : ∀ {S S' : Set ℝ} {r r' : Res (Itv T)}, NestedPair S' r r' → S ⊆ S' → NestedPair S r r' := by
    rintro S S' _ _ ⟨z, z', h1, h2, h3, h4⟩ h
    exact ⟨z, z', h1, h2, h.trans h3, h4⟩
  have step₂ : ∀ {S₁ S₂ S' : Set ℝ} {r r' s s' : Res (Itv T)} {g : Itv T → Itv T → Res (Itv T)}, NestedPair S₁ r r' → NestedPair S₂ s s' →
      (∀ x x' y y', S₁ ⊆ γ x → γ x ⊆ γ x' → S₂ ⊆ γ y → γ y ⊆ γ y' → NestedPair S' (g x y) (g x' y')) →
      NestedPair S' (pair r s >>= fun p => g p.1 p.2) (pair r' s' >>= fun p => g p.1 p.2) := by
    rintro S₁ S₂ S' _ _ _ _ g ⟨z, z', rfl, rfl, h1, h2⟩ ⟨w, w', rfl, rfl, h3, h4⟩ h
    exact h z z' w w' h1 h2 h3 h4
  induction e with
  | var i => exact ⟨ρ i, ρ' i, rfl, rfl, fun r ⟨v, hv, hr⟩ => hr ▸ hv i, hρ i⟩
  | num t =>
    obtain ⟨r₀, v, -, hr⟩ := hd
    obtain ⟨z, hz, -, -, e⟩ := C36_num V hr
    refine ⟨z, z, hz, hz, fun r ⟨v, hv, hr'⟩ => ?_, subset_rfl⟩
    rw [e]; exact EReal.coe_eq_coe_iff.1 (Option.some.inj (hr'.symm.trans hr))
  | un o e ih =>
    obtain ⟨ho, hS, hs⟩ := hs
    obtain ⟨r₀, v, hv', a₀, hr, hr₀⟩ := hd
    exact step (ih hs ⟨a₀, v, hv', hr⟩) fun x x' hx hxx => weak (UnOp.I_nested hv hV o ho hS ⟨a₀, hx ⟨v, hv', hr⟩, r₀, hr₀⟩ hxx)
      fun r ⟨v, hv, a, ha, h⟩ => ⟨a, hx ⟨v, hv, ha⟩, h⟩
  | pow e k ih =>
    obtain ⟨hk, ho, hs⟩ := hs
    obtain ⟨r₀, v, hv', a₀, hr, hr₀, -⟩ := hd
    exact step (g := fun x => powI V.pp x k) (ih hs ⟨a₀, v, hv', hr⟩) fun x x' hx hxx =>
      weak (powI_nested hv hV hk ho ⟨a₀, hx ⟨v, hv', hr⟩, hr₀⟩ hxx) fun r ⟨v, hv, a, ha, h⟩ => ⟨a, hx ⟨v, hv, ha⟩, h⟩
  | bin o e₁ e₂ ih₁ ih₂ =>
    obtain ⟨ho, hs₁, hs₂⟩ := hs
    obtain ⟨r₀, v, hv', a₀, b₀, hr₁, hr₂, hr₀⟩ := hd
    exact step₂ (g := fun x y => o.II V.pp x y) (ih₁ hs₁ ⟨a₀, v, hv', hr₁⟩) (ih₂ hs₂ ⟨b₀, v, hv', hr₂⟩) fun x x' y y' hx hxx hy hyy =>
      weak (BinOp.II_nested hv hV o ho ⟨a₀, hx ⟨v, hv', hr₁⟩, b₀, hy ⟨v, hv', hr₂⟩, r₀, hr₀⟩ hxx hyy)
        fun r ⟨v, hv, a, b, ha, hb, h⟩ => ⟨a, hx ⟨v, hv, ha⟩, b, hy ⟨v, hv, hb⟩, h⟩
  | binL o t e ih =>
    obtain ⟨ho, hs⟩ := hs
    obtain ⟨r₀, v, hv', a₀, b₀, ht, hr, hr₀⟩ := hd
    exact step (g := fun x => o.TI V.pp t x) (ih hs ⟨b₀, v, hv', hr⟩) fun x x' hx hxx =>
      weak (BinOp.TI_nested hv hV o ho ht ⟨b₀, hx ⟨v, hv', hr⟩, r₀, hr₀⟩ hxx)
        fun r ⟨v, hv, a, b, ht', hb, h⟩ => ⟨b, hx ⟨v, hv, hb⟩, by rwa [EReal.coe_eq_coe_iff.1 (Option.some.inj (ht.symm.trans ht'))]⟩
  | binR o e t ih =>
    obtain ⟨r₀, v, hv', a₀, b₀, hr, ht, hr₀⟩ := hd
    exact step (g := fun x => o.IT V.pp x t) (ih hs ⟨a₀, v, hv', hr⟩) fun x x' hx hxx =>
      weak (BinOp.IT_nested hv hV o ht ⟨a₀, hx ⟨v, hv', hr⟩, r₀, hr₀⟩ hxx)
        fun r ⟨v, hv, a, b, ha, ht', h⟩ => ⟨a, hx ⟨v, hv, ha⟩, by rwa [EReal.coe_eq_coe_iff.1 (Option.some.inj (ht.symm.trans ht'))]⟩
  | inter e₁ e₂ ih₁ ih₂ =>
    obtain ⟨hs₁, hs₂⟩ := hs
    obtain ⟨r₀, v, hv', hr₁, hr₂⟩ := hd
    refine step₂ (g := fun x y => lift (intersect V.pp.chk x y)) (ih₁ hs₁ ⟨r₀, v, hv', hr₁⟩) (ih₂ hs₂ ⟨r₀, v, hv', hr₂⟩)
      fun x x' y y' hx hxx hy hyy => ?_
    have h₀ : r₀ ∈ γ x ∩ γ y := ⟨hx ⟨v, hv', hr₁⟩, hy ⟨v, hv', hr₂⟩⟩
    exact .image (C23_intersect V ⟨r₀, h₀⟩) (C23_intersect V ⟨r₀, hxx h₀.1, hyy h₀.2⟩)
      (fun r ⟨v, hv, ha, hb⟩ => ⟨hx ⟨v, hv, ha⟩, hy ⟨v, hv, hb⟩⟩) (inter_subset_inter hxx hyy)
  | fn f e ih =>
    obtain ⟨⟨hK, hf, hi, h1⟩, hs⟩ := hs
    obtain ⟨r₀, v, hv', a₀, hr, hr₀, -⟩ := hd
    exact step (g := fun x => f.I K fuel V.pp x) (ih hs ⟨a₀, v, hv', hr⟩) fun x x' hx hxx =>
      weak (Fn.I_nested hv hV f h1 hf hK hi ⟨a₀, hx ⟨v, hv', hr⟩, hr₀⟩ hxx)
        fun r ⟨v, hv, a, ha, hd, h⟩ => ⟨a, ⟨hx ⟨v, hv, ha⟩, hd⟩, h.symm⟩

end

end BI
