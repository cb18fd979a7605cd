import Verif.Proofs.Ext
import Verif.Core.Sim
import Verif.Spec.Env
/-! # Laws of base types, of checking policies and of directed arithmetic -/

set_option linter.unusedSectionVars false

namespace BI
open Set

section
variable {T : Type} [Num T] [Val T] [NumLaws T] {a b : T} {x y : EReal}

theorem lt_eq (ha : val a = some x) (hb : val b = some y) : Num.lt a b = decide (x < y) := by
  have h := NumLaws.lt_iff a b
  rw [Bool.eq_iff_iff, h, decide_eq_true_iff]
  constructor
  · rintro ⟨x', y', h1, h2, h3⟩
    rw [ha] at h1; rw [hb] at h2; cases h1; cases h2; exact h3
  · intro h; exact ⟨x, y, ha, hb, h⟩

theorem le_eq (ha : val a = some x) (hb : val b = some y) : Num.le a b = decide (x ≤ y) := by
  have h := NumLaws.le_iff a b
  rw [Bool.eq_iff_iff, h, decide_eq_true_iff]
  constructor
  · rintro ⟨x', y', h1, h2, h3⟩
    rw [ha] at h1; rw [hb] at h2; cases h1; cases h2; exact h3
  · intro h; exact ⟨x, y, ha, hb, h⟩

theorem eq_eq (ha : val a = some x) (hb : val b = some y) : Num.eq a b = decide (x = y) := by
  have h := NumLaws.eq_iff a b
  rw [Bool.eq_iff_iff, h, decide_eq_true_iff]
  constructor
  · rintro ⟨x', h1, h2⟩
    rw [ha] at h1; rw [hb] at h2; cases h1; cases h2; rfl
  · rintro rfl; exact ⟨x, ha, hb⟩

theorem val_zero : val (Num.lit 0 : T) = some 0 := by
  have := NumLaws.lit (T := T) 0 (by norm_num); simpa using this

theorem val_one : val (Num.lit 1 : T) = some 1 := by
  have := NumLaws.lit (T := T) 1 (by norm_num); simpa using this

theorem val_negOne : val (Num.lit (-1) : T) = some (-1) := by
  have := NumLaws.lit (T := T) (-1) (by norm_num); simpa using this

theorem isZero_eq (ha : val a = some x) : isZero a = decide (x = 0) := eq_eq ha val_zero
theorem isNeg_eq (ha : val a = some x) : isNeg a = decide (x < 0) := lt_eq ha val_zero
theorem isPos_eq (ha : val a = some x) : isPos a = decide (0 < x) := lt_eq val_zero ha

theorem val_stdMin (ha : val a = some x) (hb : val b = some y) : val (stdMin a b) = some (min x y) := by
  unfold stdMin
  rw [lt_eq hb ha]
  by_cases h : y < x
  · rw [min_eq_right h.le]; simp [h, hb]
  · rw [min_eq_left (not_lt.1 h)]; simp [h, ha]

theorem val_stdMax (ha : val a = some x) (hb : val b = some y) : val (stdMax a b) = some (max x y) := by
  unfold stdMax
  rw [lt_eq ha hb]
  by_cases h : x < y
  · rw [max_eq_right h.le]; simp [h, hb]
  · rw [max_eq_left (not_lt.1 h)]; simp [h, ha]
end

/-! ## Outcomes -/

/-- Normal outcome satisfying `Q`; a failing base operation is allowed when `tot` does not hold. -/
def Post (tot : Prop) {α : Type} (m : Res α) (Q : α → Prop) : Prop :=
  match m with
  | .ok a => Q a
  | .error e => e = .base ∧ ¬ tot

namespace Post
variable {tot : Prop} {α β : Type}

theorem ok {a : α} {Q : α → Prop} (h : Q a) : Post tot (.ok a : Res α) Q := h
theorem pure {a : α} {Q : α → Prop} (h : Q a) : Post tot (Pure.pure a : Res α) Q := h

theorem bind {m : Res α} {f : α → Res β} {Q : α → Prop} {R : β → Prop} (h : Post tot m Q)
    (hf : ∀ a, Q a → Post tot (f a) R) : Post tot (m >>= f) R := by
  cases m with
  | ok a => exact hf a h
  | error e => exact h

theorem mono {m : Res α} {Q R : α → Prop} (h : Post tot m Q) (hQ : ∀ a, Q a → R a) : Post tot m R := by
  cases m with
  | ok a => exact hQ a h
  | error e => exact h

theorem pair {m : Res α} {n : Res β} {Q : α → Prop} {R : β → Prop} (h : Post tot m Q) (h' : Post tot n R) :
    Post tot (BI.pair m n) (fun p => Q p.1 ∧ R p.2) := by
  cases m with
  | ok a =>
    cases n with
    | ok b => exact ⟨h, h'⟩
    | error e => exact h'
  | error e => exact h

theorem quad {γ δ : Type} {m : Res α} {n : Res β} {k : Res γ} {l : Res δ} {Q : α → Prop} {R : β → Prop} {S : γ → Prop}
    {S' : δ → Prop} (h : Post tot m Q) (h' : Post tot n R) (h2 : Post tot k S) (h3 : Post tot l S') :
    Post tot (BI.quad m n k l) (fun p => (Q p.1.1 ∧ R p.1.2) ∧ S p.2.1 ∧ S' p.2.2) := by
  rcases m with e | a
  · exact h
  rcases n with e | b
  · exact h'
  rcases k with e | c
  · exact h2
  rcases l with e | d
  · exact h3
  exact ⟨⟨h, h'⟩, h2, h3⟩

/-- With total operations the outcome is a value. -/
theorem total {m : Res α} {Q : α → Prop} (h : Post True m Q) : ∃ a, m = .ok a ∧ Q a := by
  cases m with
  | ok a => exact ⟨a, rfl, h⟩
  | error e => exact absurd trivial h.2

theorem of_eq {m : Res α} {a : α} {Q : α → Prop} (h : m = .ok a) (hQ : Q a) : Post tot m Q := by
  rw [h]; exact hQ

theorem ofOpt {o : Option α} {Q : α → Prop} (h : ∀ a, o = some a → Q a) (ht : tot → o ≠ none) :
    Post tot (BI.ofOpt o) Q := by
  cases o with
  | some a => exact h a rfl
  | none => exact ⟨rfl, fun t => ht t rfl⟩

end Post

/-! ## Checking -/

/-- Non-empty intervals and numbers other than NaN pass the checks. -/
structure ChkLaws {T : Type} [Val T] (C : Checking T) : Prop where
  isEmpty : ∀ (l u : T) (a b : EReal), val l = some a → val u = some b → a ≤ b → C.isEmpty l u = .ok false
  isNan : ∀ (l : T) (a : EReal), val l = some a → C.isNan l = .ok false

/-- The policy delivers infinities. -/
structure InfLaws {T : Type} [Val T] (C : Checking T) : Prop where
  posInf : ∃ t, C.posInf = .ok t ∧ val t = some ⊤
  negInf : ∃ t, C.negInf = .ok t ∧ val t = some ⊥

section
variable {T : Type} [Num T] [Val T] [NumLaws T]

theorem chkSpec_laws (sp : ChkSpec) (nd : Bool) : ChkLaws (sp.eval T nd) := by
  induction sp with
  | base =>
    constructor
    · intro l u a b hl hu h
      change Except.ok (!Num.le l u) = _
      rw [le_eq hl hu]; simp [h]
    · intro l a hl
      change Except.ok (Num.hasNaN T && !Num.eq l l) = _
      rw [eq_eq hl hl]; simp
  | noEmpty c ih => exact ⟨fun _ _ _ _ _ _ _ => rfl, ih.isNan⟩
  | noNan c ih => exact ⟨ih.isEmpty, fun _ _ _ => rfl⟩
  | catchNan c ih =>
    refine ⟨ih.isEmpty, fun l a h => ?_⟩
    change (do if ← (c.eval T nd).isNan l then .error .invalidNumber
               pure false : Res Bool) = _
    rw [ih.isNan l a h]; rfl

theorem chkSpec_inf (sp : ChkSpec) (nd : Bool) (hi : Num.hasInf T = true) (hn : (Num.neg (Num.infinity : T)).isSome) :
    InfLaws (sp.eval T nd) := by
  induction sp with
  | base =>
    constructor
    · refine ⟨Num.infinity, ?_, NumLaws.inf hi⟩
      change (do assertRes nd (Num.hasInf T); pure Num.infinity : Res T) = _
      rw [hi]; rfl
    · obtain ⟨t, ht⟩ := Option.isSome_iff_exists.1 hn
      refine ⟨t, ?_, ?_⟩
      · change (do assertRes nd (Num.hasInf T); ofOpt (Num.neg Num.infinity) : Res T) = _
        rw [hi, ht]; rfl
      · rw [NumLaws.neg _ _ ht, NumLaws.inf hi]; simp
  | noEmpty c ih => exact ⟨ih.posInf, ih.negInf⟩
  | noNan c ih => exact ⟨ih.posInf, ih.negInf⟩
  | catchNan c ih => exact ⟨ih.posInf, ih.negInf⟩
end

/-! ## Valid intervals -/

/-- `x` is a non-empty interval with bounds of values `a` and `b`. -/
structure Has {T : Type} [Val T] (x : Itv T) (a b : EReal) : Prop where
  lo : val x.lower = some a
  up : val x.upper = some b
  ne_top : a ≠ ⊤
  ne_bot : b ≠ ⊥
  le : a ≤ b

section
variable {T : Type} [Val T] {x : Itv T} {a b : EReal}

theorem Has.gamma (h : Has x a b) : γ x = RI a b := by
  ext r
  constructor
  · rintro ⟨l, u, h1, h2, h3, h4⟩
    rw [h.lo] at h1; rw [h.up] at h2; cases h1; cases h2; exact ⟨h3, h4⟩
  · rintro ⟨h3, h4⟩; exact ⟨a, b, h.lo, h.up, h3, h4⟩

theorem Has.exists_mem (h : Has x a b) : ∃ r, r ∈ RI a b := exists_mem_RI h.ne_top h.ne_bot h.le

theorem has_of_mem {r : ℝ} (h : r ∈ γ x) : ∃ a b, Has x a b := by
  obtain ⟨l, u, h1, h2, h3, h4⟩ := h
  have h5 : r ∈ RI l u := ⟨h3, h4⟩
  exact ⟨l, u, h1, h2, RI.ne_top h5, RI.ne_bot h5, RI.le h5⟩

theorem Has.lower_cl (h : Has x a b) : a ∈ closure (E (γ x)) := by
  obtain ⟨r, hr⟩ := h.exists_mem; rw [h.gamma]; exact lower_mem_closure hr

theorem Has.upper_cl (h : Has x a b) : b ∈ closure (E (γ x)) := by
  obtain ⟨r, hr⟩ := h.exists_mem; rw [h.gamma]; exact upper_mem_closure hr

theorem Has.lb (h : Has x a b) {r : ℝ} (hr : r ∈ γ x) : a ≤ r := by rw [h.gamma] at hr; exact hr.1
theorem Has.ub (h : Has x a b) {r : ℝ} (hr : r ∈ γ x) : r ≤ b := by rw [h.gamma] at hr; exact hr.2

theorem Has.test {C : Checking T} (hC : ChkLaws C) (h : Has x a b) : testI C x = .ok false :=
  hC.isEmpty _ _ _ _ h.lo h.up h.le

theorem Has.test2 {C : Checking T} (hC : ChkLaws C) {y : Itv T} {c d : EReal} (h : Has x a b) (h' : Has y c d) :
    testII C C x y = .ok false := by
  have h1 := h.test hC; have h2 := h'.test hC
  unfold testI at h1 h2
  unfold testII
  rw [h1, h2]; rfl
end

/-! ## Directed arithmetic -/

/-- `A` returns for each operation a value that stands for a lower (`D`) or an upper (`U`) limit, whenever the exact result makes
sense in the extended reals; `D` and `U` are compatible with minima and maxima. -/
structure OpLaws {T : Type} [Num T] [Val T] (tot : Prop) (D U : EReal → EReal → Prop) (A : Arith Res T) : Prop where
  D_min : ∀ {z e z' e'}, D z e → D z' e' → D (min z z') (min e e')
  U_max : ∀ {z e z' e'}, U z e → U z' e' → U (max z z') (max e e')
  D_exact : ∀ (a : T) e, val a = some e → D e e
  U_exact : ∀ (a : T) e, val a = some e → U e e
  neg : tot → ∀ a : T, Num.neg a ≠ none
  addDown : ∀ (a b : T) x y, val a = some x → val b = some y → AddOk x y →
    Post tot (A.addDown a b) fun c => ∃ z, val c = some z ∧ D z (x + y)
  addUp : ∀ (a b : T) x y, val a = some x → val b = some y → AddOk x y →
    Post tot (A.addUp a b) fun c => ∃ z, val c = some z ∧ U z (x + y)
  subDown : ∀ (a b : T) x y, val a = some x → val b = some y → SubOk x y →
    Post tot (A.subDown a b) fun c => ∃ z, val c = some z ∧ D z (x - y)
  subUp : ∀ (a b : T) x y, val a = some x → val b = some y → SubOk x y →
    Post tot (A.subUp a b) fun c => ∃ z, val c = some z ∧ U z (x - y)
  mulDown : ∀ (a b : T) x y, val a = some x → val b = some y → MulOk x y →
    Post tot (A.mulDown a b) fun c => ∃ z, val c = some z ∧ D z (x * y)
  mulUp : ∀ (a b : T) x y, val a = some x → val b = some y → MulOk x y →
    Post tot (A.mulUp a b) fun c => ∃ z, val c = some z ∧ U z (x * y)

/-- The values that stand for lower and upper limits lie below and above them. -/
structure DirLaws {T : Type} [Num T] [Val T] (tot : Prop) (D U : EReal → EReal → Prop) (A : Arith Res T) : Prop
    extends OpLaws tot D U A where
  D_le : ∀ {z e}, D z e → z ≤ e
  U_ge : ∀ {z e}, U z e → e ≤ z

theorem DirLaws.op {T : Type} [Num T] [Val T] {tot : Prop} {D U : EReal → EReal → Prop} {A : Arith Res T}
    (h : DirLaws tot D U A) : OpLaws tot D U A := h.toOpLaws

/-- The same for division (kept apart: built-in integers do not satisfy it). -/
structure DivLaws {T : Type} [Num T] [Val T] (tot : Prop) (D U : EReal → EReal → Prop) (A : Arith Res T) : Prop where
  divDown : ∀ (a b : T) x y, val a = some x → val b = some y → DivOk x y →
    Post tot (A.divDown a b) fun c => ∃ z, val c = some z ∧ D z (x / y)
  divUp : ∀ (a b : T) x y, val a = some x → val b = some y → DivOk x y →
    Post tot (A.divUp a b) fun c => ∃ z, val c = some z ∧ U z (x / y)

/-- The same for the square root. -/
structure SqrtLaws {T : Type} [Num T] [Val T] (tot : Prop) (D U : EReal → EReal → Prop) (A : Arith Res T) : Prop where
  sqrtDown : ∀ (a : T) x, val a = some x → 0 ≤ x →
    Post tot (A.sqrtDown a) fun c => ∃ z, val c = some z ∧ D z (esqrt x)
  sqrtUp : ∀ (a : T) x, val a = some x → 0 ≤ x →
    Post tot (A.sqrtUp a) fun c => ∃ z, val c = some z ∧ U z (esqrt x)

/-- The bounds of `z` are acceptable approximations of the greatest lower and the least upper bound of `S`. -/
def Bnd {T : Type} [Val T] (D U : EReal → EReal → Prop) (S : Set ℝ) (z : Itv T) : Prop :=
  ∃ l u e₁ e₂, val z.lower = some l ∧ val z.upper = some u ∧ IsGLB (E S) e₁ ∧ IsLUB (E S) e₂ ∧ D l e₁ ∧ U u e₂

section
variable {T : Type} [Num T] [Val T] {tot : Prop} {D U : EReal → EReal → Prop} {A : Arith Res T}

theorem Bnd.encl (hD : ∀ {z e}, D z e → z ≤ e) (hU : ∀ {z e}, U z e → e ≤ z) {S : Set ℝ} {z : Itv T}
    (h : Bnd D U S z) : S ⊆ γ z := by
  intro r hr
  obtain ⟨l, u, e₁, e₂, h1, h2, h3, h4, h5, h6⟩ := h
  exact ⟨l, u, h1, h2, (hD h5).trans (h3.1 ⟨r, hr, rfl⟩), (h4.1 ⟨r, hr, rfl⟩).trans (hU h6)⟩

theorem mk2_post {p q : Res T} {e₁ e₂ : EReal} {S : Set ℝ}
    (hp : Post tot p fun c => ∃ z, val c = some z ∧ D z e₁) (hq : Post tot q fun c => ∃ z, val c = some z ∧ U z e₂)
    (h₁ : IsGLB (E S) e₁) (h₂ : IsLUB (E S) e₂) : Post tot (mk2 p q) (Bnd D U S) := by
  refine (hp.pair hq).bind fun c hc => Post.pure ?_
  obtain ⟨⟨l, hl, hl'⟩, ⟨u, hu, hu'⟩⟩ := hc
  exact ⟨l, u, e₁, e₂, hl, hu, h₁, h₂, hl', hu'⟩
end

end BI
