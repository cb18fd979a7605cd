import Verif.Proofs.ExNewton
/-! # examples/findroot_demo.cpp -/

set_option linter.unusedSectionVars false

namespace BI
open Set

section
variable {T : Type} [Num T] [Val T] [NumLaws T] {V : Env T} {a b c d e : ℝ} {Term : Prop} {D : Itv T → ℕ} {wd : Itv T → EReal} {eps : T}

/-- What the programs use of `width` and `bisect` on parts of `[a, b]`. If `Term` holds, `wd` is the computed
width and `D` bounds how often an interval is cut while it is wide. -/
structure ZData (V : Env T) (eps : T) (e a b : ℝ) (Term : Prop) (D : Itv T → ℕ) (wd : Itv T → EReal) : Prop where
  eps : val eps = some (e : EReal)
  width : ∀ x, Box a b x → V.Returns (width V.P x) fun w =>
    ∃ q, val w = some q ∧ (∀ r ∈ γ x, ∀ s ∈ γ x, ((s - r : ℝ) : EReal) ≤ q) ∧ (Term → q = wd x)
  depth : Term → ∀ x, Box a b x → (e : EReal) ≤ wd x → 1 ≤ D x
  bisect : ∀ x, Box a b x → V.Returns (bisect V.P x) fun p =>
    Box a b p.1 ∧ Box a b p.2 ∧ γ p.1 ∪ γ p.2 = γ x ∧ (Term → (e : EReal) ≤ wd x → D p.1 ≤ D x - 1 ∧ D p.2 ≤ D x - 1)

/-- How often the loop turns for one interval. -/
def turns (d : ℕ) : ℕ := 2 ^ (d + 1) - 1

theorem turns_step {d p q : ℕ} (hd : 1 ≤ d) (hp : p ≤ d - 1) (hq : q ≤ d - 1) : turns p + turns q + 1 ≤ turns d := by
  have h : ∀ k ≤ d - 1, turns k ≤ 2 ^ d - 1 := fun k hk => by
    unfold turns
    have : 2 ^ (k + 1) ≤ 2 ^ d := Nat.pow_le_pow_right (by norm_num) (by omega)
    omega
  have h1 := h p hp
  have h2 := h q hq
  have h3 : 1 ≤ 2 ^ d := Nat.one_le_two_pow
  unfold turns at *
  rw [pow_succ]
  omega

theorem turns_pos (d : ℕ) : 1 ≤ turns d := by
  unfold turns
  have : 2 ^ 1 ≤ 2 ^ (d + 1) := Nat.pow_le_pow_right (by norm_num) (by omega)
  omega

theorem narrowT {w : T} {q : EReal} {x : Itv T} (hm : val eps = some (e : EReal)) (hq : val w = some q)
    (h : ∀ r ∈ γ x, ∀ s ∈ γ x, ((s - r : ℝ) : EReal) ≤ q) (hl : Num.lt w eps = true) : ∀ r ∈ γ x, ∀ s ∈ γ x, s - r < e := by
  rw [lt_eq hq hm, decide_eq_true_eq] at hl
  intro r hr s hs
  exact_mod_cast (h r hr s hs).trans_lt hl
end

section
variable {T α ρ : Type} {mem : ρ → α → Prop} {S S' : Set ρ} {B G : α → Prop} {l res : List α} {x : α}

/-- The state of the loops: pieces to look at, results, and the points that they cover. -/
structure QInv (mem : ρ → α → Prop) (S : Set ρ) (B G : α → Prop) (l res : List α) : Prop where
  box : ∀ z ∈ l, B z
  good : ∀ z ∈ res, G z
  cov : ∀ r ∈ S, ∃ z, (z ∈ l ∨ z ∈ res) ∧ mem r z

theorem QInv.uncons (h : QInv mem S B G (x :: l) res) :
    B x ∧ ∃ S' : Set ρ, QInv mem S' B G l res ∧ ∀ r ∈ S, r ∈ S' ∨ mem r x := by
  refine ⟨h.box x List.mem_cons_self, {r | ∃ z, (z ∈ l ∨ z ∈ res) ∧ mem r z},
    ⟨fun z hz => h.box z (List.mem_cons_of_mem _ hz), h.good, fun r hr => hr⟩, fun r hr => ?_⟩
  obtain ⟨z, hz, hr⟩ := h.cov r hr
  rcases hz with hz | hz
  · rcases List.mem_cons.1 hz with rfl | hz
    · exact .inr hr
    · exact .inl ⟨z, .inl hz, hr⟩
  · exact .inl ⟨z, .inr hz, hr⟩

theorem QInv.drop (h : QInv mem S' B G l res) (hS : ∀ r ∈ S, r ∈ S' ∨ mem r x) (hx : ∀ r ∈ S, ¬ mem r x) : QInv mem S B G l res :=
  ⟨h.box, h.good, fun r hr => h.cov r ((hS r hr).resolve_right (hx r hr))⟩

theorem QInv.done (h : QInv mem S' B G l res) (hS : ∀ r ∈ S, r ∈ S' ∨ mem r x) (hx : G x) : QInv mem S B G l (res ++ [x]) := by
  refine ⟨h.box, fun z hz => ?_, fun r hr => ?_⟩
  · rcases List.mem_append.1 hz with hz | hz
    · exact h.good z hz
    · rw [List.mem_singleton.1 hz]; exact hx
  · rcases hS r hr with h' | h'
    · obtain ⟨z, hz, h'⟩ := h.cov r h'
      exact ⟨z, hz.imp id (List.mem_append_left _), h'⟩
    · exact ⟨x, .inr (by simp), h'⟩

theorem QInv.cut {p q : α} (h : QInv mem S' B G l res) (hS : ∀ r ∈ S, r ∈ S' ∨ mem r x) (hp : B p) (hq : B q)
    (hm : ∀ r, mem r x → mem r p ∨ mem r q) : QInv mem S B G (l ++ [p, q]) res := by
  refine ⟨fun z hz => ?_, h.good, fun r hr => ?_⟩
  · rcases List.mem_append.1 hz with hz | hz
    · exact h.box z hz
    · simp at hz; rcases hz with rfl | rfl <;> assumption
  · rcases hS r hr with h' | h'
    · obtain ⟨z, hz, h'⟩ := h.cov r h'
      exact ⟨z, hz.imp (List.mem_append_left _) id, h'⟩
    · rcases hm r h' with h' | h'
      · exact ⟨p, .inl (by simp), h'⟩
      · exact ⟨q, .inl (by simp), h'⟩
end

section
variable {T : Type} [Num T] [Val T] [NumLaws T] {V : Env T} {a b c d e : ℝ} {Term : Prop} {D : Itv T → ℕ} {wd : Itv T → EReal} {eps : T}

theorem proper_zero_tri {J : Inv V.ctl.W} {E : Err → Prop} {y : Itv T} (h : V.Proper y) :
    Tri J E (BI.lift (zeroIn V.P.chk y) : M V.ctl.W Bool) fun c => c = true ↔ (0 : ℝ) ∈ γ y := by
  classical
  rw [V.P_chk, C22_zero_in (V := V) h]
  exact Tri.lift (by simp [PostE])

/-- `f` notices the points of `Z`. -/
def Notices (V : Env T) {α ρ : Type} (mem : ρ → α → Prop) (ne : α → Prop) (g : α → M V.ctl.W (Itv T)) (Z : ρ → Prop) : Prop :=
  ∀ x, ne x → V.Returns (g x) fun y => V.Proper y ∧ ∀ r, mem r x → Z r → (0 : ℝ) ∈ γ y

/-- Narrow part of `[a, b]`. -/
def Good1 (a b e : ℝ) (z : Itv T) : Prop := Box a b z ∧ ∀ r ∈ γ z, ∀ s ∈ γ z, s - r < e

theorem zeros1_tri {f : Itv T → M V.ctl.W (Itv T)} {Z : ℝ → Prop} (hZ : ZData V eps e a b Term D wd)
    (hf : Notices V (fun r x => r ∈ γ x) (fun x => (γ x).Nonempty) f Z) (n : ℕ) :
    ∀ (S : Set ℝ) (l res : List (Itv T)), (∀ r ∈ S, Z r) → QInv (fun r x => r ∈ γ x) S (Box a b) (Good1 a b e) l res →
      Tri (outer V.laws) (fun err => err = .fuel ∧ (Term → n < (l.map fun x => turns (D x)).sum)) (findZeros1 V.P f eps n l res)
        fun R => QInv (fun r x => r ∈ γ x) S (Box a b) (Good1 a b e) [] R := by
  induction n with
  | zero =>
    intro S l res _ h
    cases l with
    | nil => unfold findZeros1; exact Tri.pure h
    | cons x l =>
      unfold findZeros1
      refine Tri.err ⟨rfl, fun _ => ?_⟩
      have := turns_pos (D x)
      simp only [List.map_cons, List.sum_cons]
      omega
  | succ n ih =>
    intro S l res hSZ h
    cases l with
    | nil => unfold findZeros1; exact Tri.pure h
    | cons x l =>
      obtain ⟨hx, S', hL, hS⟩ := h.uncons
      have hpos := turns_pos (D x)
      have weak : ∀ {L R : List (Itv T)}, QInv (fun r x => r ∈ γ x) S (Box a b) (Good1 a b e) L R →
          (Term → (L.map fun x => turns (D x)).sum + 1 ≤ ((x :: l).map fun x => turns (D x)).sum) →
          Tri (outer V.laws) (fun err => err = .fuel ∧ (Term → n + 1 < ((x :: l).map fun x => turns (D x)).sum))
            (findZeros1 V.P f eps n L R) fun R => QInv (fun r x => r ∈ γ x) S (Box a b) (Good1 a b e) [] R := by
        intro L R hI hm
        exact (ih S L R hSZ hI).errMono fun err he => ⟨he.1, fun ht => lt_of_lt_of_le (Nat.add_lt_add_right (he.2 ht) 1) (hm ht)⟩
      unfold findZeros1
      refine ((hf x hx.nonempty).tri).bind fun y ⟨hy, hy'⟩ => (proper_zero_tri hy).bind fun c hc => ?_
      refine Tri.ite (fun h => ?_) fun h => ?_
      · refine ((hZ.width x hx).tri).bind fun w ⟨q, hq, hw, ht⟩ => ?_
        refine Tri.ite (fun h => ?_) fun h => ?_
        · refine weak (hL.done hS ⟨hx, narrowT hZ.eps hq hw h⟩) fun _ => ?_
          simp only [List.map_cons, List.sum_cons]; omega
        · rw [lt_eq hq hZ.eps, decide_eq_true_eq, not_lt] at h
          refine ((hZ.bisect x hx).tri).bind fun pq ⟨hp, hq, hpq, hD⟩ => ?_
          rcases pq with ⟨p, q⟩
          refine weak (hL.cut hS hp hq fun r hr => ?_) fun hT => ?_
          · rw [← hpq] at hr; exact hr
          · have := turns_step (hZ.depth hT x hx (ht hT ▸ h)) (hD hT (ht hT ▸ h)).1 (hD hT (ht hT ▸ h)).2
            simp only [List.map_cons, List.sum_cons, List.map_append, List.sum_append, List.map_nil, List.sum_nil]
            dsimp only at this
            omega
      · refine weak (hL.drop hS fun r hr hr' => h (hc.2 (hy' r hr' (hSZ r hr)))) fun _ => ?_
        simp only [List.map_cons, List.sum_cons]; omega

/-- Narrow part of `[a, b] × [c, d]`. -/
def Good2 (a b c d e : ℝ) (z : Itv T × Itv T) : Prop := Good1 a b e z.1 ∧ Good1 c d e z.2

theorem zeros2_tri {f : Itv T → Itv T → M V.ctl.W (Itv T)} {Z : ℝ × ℝ → Prop} (hZ : ZData V eps e a b Term D wd)
    (hZ' : ZData V eps e c d Term D wd)
    (hf : Notices V (fun (r : ℝ × ℝ) (x : Itv T × Itv T) => r.1 ∈ γ x.1 ∧ r.2 ∈ γ x.2)
      (fun x => (γ x.1).Nonempty ∧ (γ x.2).Nonempty) (fun x => f x.1 x.2) Z) (n : ℕ) :
    ∀ (S : Set (ℝ × ℝ)) (l res : List (Itv T × Itv T)), (∀ r ∈ S, Z r) →
      QInv (fun r x => r.1 ∈ γ x.1 ∧ r.2 ∈ γ x.2) S (fun x => Box a b x.1 ∧ Box c d x.2) (Good2 a b c d e) l res →
      Tri (outer V.laws) (fun err => err = .fuel ∧ (Term → n < (l.map fun x => turns (D x.1 + D x.2)).sum)) (findZeros2 V.P f eps n l res)
        fun R => QInv (fun r x => r.1 ∈ γ x.1 ∧ r.2 ∈ γ x.2) S (fun x => Box a b x.1 ∧ Box c d x.2) (Good2 a b c d e) [] R := by
  induction n with
  | zero =>
    intro S l res _ h
    cases l with
    | nil => unfold findZeros2; exact Tri.pure h
    | cons x l =>
      unfold findZeros2
      refine Tri.err ⟨rfl, fun _ => ?_⟩
      have := turns_pos (D x.1 + D x.2)
      simp only [List.map_cons, List.sum_cons]
      omega
  | succ n ih =>
    intro S l res hSZ h
    cases l with
    | nil => unfold findZeros2; exact Tri.pure h
    | cons x l =>
      obtain ⟨⟨hx1, hx2⟩, S', hL, hS⟩ := h.uncons
      have hpos := turns_pos (D x.1 + D x.2)
      have weak : ∀ {L R : List (Itv T × Itv T)},
          QInv (fun r x => r.1 ∈ γ x.1 ∧ r.2 ∈ γ x.2) S (fun x => Box a b x.1 ∧ Box c d x.2) (Good2 a b c d e) L R →
          (Term → (L.map fun x => turns (D x.1 + D x.2)).sum + 1 ≤ ((x :: l).map fun x => turns (D x.1 + D x.2)).sum) →
          Tri (outer V.laws) (fun err => err = .fuel ∧ (Term → n + 1 < ((x :: l).map fun x => turns (D x.1 + D x.2)).sum))
            (findZeros2 V.P f eps n L R)
            fun R => QInv (fun r x => r.1 ∈ γ x.1 ∧ r.2 ∈ γ x.2) S (fun x => Box a b x.1 ∧ Box c d x.2) (Good2 a b c d e) [] R := by
        intro L R hI hm
        exact (ih S L R hSZ hI).errMono fun err he => ⟨he.1, fun ht => lt_of_lt_of_le (Nat.add_lt_add_right (he.2 ht) 1) (hm ht)⟩
      unfold findZeros2
      refine ((hf x ⟨hx1.nonempty, hx2.nonempty⟩).tri).bind fun y ⟨hy, hy'⟩ => (proper_zero_tri hy).bind fun t hc => ?_
      refine Tri.ite (fun h => ?_) fun h => ?_
      · refine ((hZ.width x.1 hx1).tri).bind fun w1 ⟨q1, hq1, hw1, ht1⟩ => ?_
        have small : Tri (outer V.laws) (fun err => err = .fuel ∧ (Term → n + 1 < ((x :: l).map fun x => turns (D x.1 + D x.2)).sum))
            (if Num.lt w1 eps then do
              let w2 ← width V.P x.2
              pure (Num.lt w2 eps)
            else pure false) fun t => if t then Good2 a b c d e x else Term → (e : EReal) ≤ wd x.1 ∨ (e : EReal) ≤ wd x.2 := by
          refine Tri.ite (fun h1 => ?_) fun h1 => Tri.pure fun hT => ?_
          · refine ((hZ'.width x.2 hx2).tri).bind fun w2 ⟨q2, hq2, hw2, ht2⟩ => Tri.pure ?_
            split
            · exact ⟨⟨hx1, narrowT hZ.eps hq1 hw1 h1⟩, ⟨hx2, narrowT hZ.eps hq2 hw2 ‹_›⟩⟩
            · rename_i h2
              rw [lt_eq hq2 hZ.eps, decide_eq_true_eq, not_lt] at h2
              exact fun hT => .inr (ht2 hT ▸ h2)
          · rw [lt_eq hq1 hZ.eps, decide_eq_true_eq, not_lt] at h1
            exact .inl (ht1 hT ▸ h1)
        refine small.bind fun t ht => ?_
        cases t with
        | true =>
          refine weak (hL.done hS ht) fun _ => ?_
          simp only [List.map_cons, List.sum_cons]; omega
        | false =>
          have ht : Term → (e : EReal) ≤ wd x.1 ∨ (e : EReal) ≤ wd x.2 := ht
          refine ((hZ.width x.1 hx1).tri).bind fun w1 ⟨q1, hq1, _, ht1⟩ => ?_
          refine ((hZ'.width x.2 hx2).tri).bind fun w2 ⟨q2, hq2, _, ht2⟩ => ?_
          refine Tri.ite (fun h => ?_) fun h => ?_
          · rw [lt_eq hq2 hq1, decide_eq_true_eq] at h
            refine ((hZ.bisect x.1 hx1).tri).bind fun pq ⟨hp, hq, hpq, hD⟩ => ?_
            rcases pq with ⟨p, q⟩
            refine weak (hL.cut hS ⟨hp, hx2⟩ ⟨hq, hx2⟩ fun r hr => ?_) fun hT => ?_
            · rw [← hpq] at hr
              exact hr.1.imp (fun h => ⟨h, hr.2⟩) fun h => ⟨h, hr.2⟩
            · have h1 : (e : EReal) ≤ wd x.1 := by
                rw [ht1 hT, ht2 hT] at h
                rcases ht hT with h' | h'
                · exact h'
                · exact h'.trans h.le
              obtain ⟨k1, k2⟩ := hD hT h1
              dsimp only at k1 k2
              have k3 := hZ.depth hT _ hx1 h1
              have := turns_step (d := D x.1 + D x.2) (p := D p + D x.2) (q := D q + D x.2) (by omega) (by omega) (by omega)
              simp only [List.map_cons, List.sum_cons, List.map_append, List.sum_append, List.map_nil, List.sum_nil]
              omega
          · rw [lt_eq hq2 hq1, decide_eq_true_eq, not_lt] at h
            refine ((hZ'.bisect x.2 hx2).tri).bind fun pq ⟨hp, hq, hpq, hD⟩ => ?_
            rcases pq with ⟨p, q⟩
            refine weak (hL.cut hS ⟨hx1, hp⟩ ⟨hx1, hq⟩ fun r hr => ?_) fun hT => ?_
            · rw [← hpq] at hr
              exact hr.2.imp (fun h => ⟨hr.1, h⟩) fun h => ⟨hr.1, h⟩
            · have h1 : (e : EReal) ≤ wd x.2 := by
                rw [ht1 hT, ht2 hT] at h
                rcases ht hT with h' | h'
                · exact h'.trans h
                · exact h'
              obtain ⟨k1, k2⟩ := hD hT h1
              dsimp only at k1 k2
              have k3 := hZ'.depth hT _ hx2 h1
              have := turns_step (d := D x.1 + D x.2) (p := D x.1 + D p) (q := D x.1 + D q) (by omega) (by omega) (by omega)
              simp only [List.map_cons, List.sum_cons, List.map_append, List.sum_append, List.map_nil, List.sum_nil]
              omega
      · refine weak (hL.drop hS fun r hr hr' => h (hc.2 (hy' r hr' (hSZ r hr)))) fun _ => ?_
        simp only [List.map_cons, List.sum_cons]; omega
end

/-! ## The data -/

theorem zdata_fl {f : Fmt} {V : Env (Fl f)} {eps : Fl f} {e a b : ℝ} (hk : V.kind ≠ .exact) (he : val eps = some (e : EReal))
    (ha : |a| ≤ (maxFin f : ℝ) / 2) (hb : |b| ≤ (maxFin f : ℝ) / 2) :
    ZData V eps e a b False (fun _ => 0) (fun _ => 0) := by
  have hV := Env.fl_directed V hk
  refine ⟨he, fun x hx => ?_, fun h => h.elim, fun x hx => ?_⟩
  · exact V.run hV (fun _ h => width_sim h x) ((width_ge hV hx.nonempty).mono fun w ⟨q, h1, h2⟩ => ⟨q, h1, h2, fun h => h.elim⟩)
  · exact V.run hV (fun _ h => bisect_sim h x) ((bisect_fl V hk hx ha hb).mono fun p ⟨h1, h2, h3⟩ => ⟨h1, h2, h3, fun h => h.elim⟩)

/-- The width of a rational interval. -/
def ratWidth (x : Itv ℚ) : ℚ := x.upper - x.lower

open scoped Classical in
/-- How often a rational interval is halved until it is narrower than `e`. -/
noncomputable def ratDepth (e : ℚ) (x : Itv ℚ) : ℕ := sInf {d : ℕ | ratWidth x < e * 2 ^ d}

theorem ratDepth_set {e : ℚ} (he : 0 < e) (x : Itv ℚ) : {d : ℕ | ratWidth x < e * 2 ^ d}.Nonempty := by
  obtain ⟨d, hd⟩ := pow_unbounded_of_one_lt (ratWidth x / e) (by norm_num : (1 : ℚ) < 2)
  exact ⟨d, by rw [div_lt_iff₀ he] at hd; rw [mem_setOf_eq, mul_comm]; exact hd⟩

theorem zdata_rat {V : Env ℚ} (hk : V.kind = .exact) (hl : ∀ f (x : ℚ) a b, V.lib f a x = V.lib f b x) {e : ℚ} (he : 0 < e) (a b : ℝ) :
    ZData V e e a b True (ratDepth e) (fun x => ((ratWidth x : ℝ) : EReal)) := by
  have hV : V.Tight := V.rat_ok hk hl _ _
  refine ⟨rfl, fun x hx => ?_, fun _ x hx h => ?_, fun x hx => ?_⟩
  · obtain ⟨l, u, h1, h2, h3, h4, h5⟩ := hx
    have ix := has_real h1 h2 h4
    refine (C26_width_tight V hV ix.nonempty h1 h2).mono fun w ⟨q, hq, hU⟩ => ?_
    have hr : q = ((u - l : ℝ) : EReal) := by
      have e1 : ((ratWidth x : ℝ) : EReal) = ((u - l : ℝ) : EReal) := by
        cases h1; cases h2; unfold ratWidth; push_cast; rfl
      refine le_antisymm (hU.2.2 _ ⟨ratWidth x, ?_⟩ le_rfl) hU.2.1
      rw [← e1]; rfl
    refine ⟨q, hq, fun r hr' s hs => ?_, fun _ => ?_⟩
    · rw [ix.gamma_Icc] at hr' hs
      rw [hr]
      exact_mod_cast (by linarith [hr'.1, hs.2] : s - r ≤ u - l)
    · rw [hr]; cases h1; cases h2; unfold ratWidth; push_cast; rfl
  · have h' : e ≤ ratWidth x := by exact_mod_cast h
    by_contra hd
    have h0 : ratDepth e x = 0 := by omega
    have := Nat.sInf_mem (ratDepth_set he x)
    change ratWidth x < e * 2 ^ (ratDepth e x) at this
    rw [h0, pow_zero, mul_one] at this
    linarith
  · obtain ⟨l, u, h1, h2, h3, h4, h5⟩ := hx
    have ix := has_real h1 h2 h4
    have hle : x.lower ≤ x.upper := by
      cases h1; cases h2; exact_mod_cast h4
    have hm : V.B.median x.lower x.upper = .ok ((x.lower + x.upper) / 2) := by
      unfold Env.B
      rw [hk]
      change ofOpt (halfSum .near x.lower x.upper) = _
      change ofOpt ((Option.some (x.lower + x.upper)).bind (fun s => if ((2 : ℤ) : ℚ) = 0 then none else some (s / ((2 : ℤ) : ℚ)))) = _
      norm_num
      rfl
    refine V.run hV (fun _ h => bisect_sim h x) ?_
    unfold bisect median
    rw [pure_chk, res_if_false (ix.test V.chk), res_if_false (ix.test V.chk), pure_scope, pure_rnd, hm]
    set m := (x.lower + x.upper) / 2 with hmd
    have k1 : x.lower ≤ m := by rw [hmd]; linarith
    have k2 : m ≤ x.upper := by rw [hmd]; linarith
    have hlow : (x.lower : ℝ) = l := by cases h1; rfl
    have hup : (x.upper : ℝ) = u := by cases h2; rfl
    have hmm : (m : ℝ) ∈ γ x := by
      rw [ix.gamma_Icc, ← hlow, ← hup]; exact ⟨by exact_mod_cast k1, by exact_mod_cast k2⟩
    obtain ⟨g1, -⟩ := gamma_split (m := m) hmm rfl
    have hdep : ∀ y : Itv ℚ, ratWidth y = ratWidth x / 2 → ratDepth e y ≤ ratDepth e x - 1 := by
      intro y hy
      have h := Nat.sInf_mem (ratDepth_set he x)
      change ratWidth x < e * 2 ^ (ratDepth e x) at h
      refine Nat.sInf_le ?_
      change ratWidth y < e * 2 ^ (ratDepth e x - 1)
      rw [hy]
      rcases Nat.eq_zero_or_pos (ratDepth e x) with h0 | h0
      · rw [h0] at h ⊢
        have : 0 ≤ ratWidth x := by unfold ratWidth; linarith
        simp at h ⊢
        linarith
      · obtain ⟨k, hk⟩ := Nat.exists_eq_succ_of_ne_zero h0.ne'
        rw [hk] at h ⊢
        rw [Nat.succ_eq_add_one, pow_succ] at h
        simp only [Nat.succ_eq_add_one, Nat.add_sub_cancel]
        linarith
    refine ⟨⟨l, m, h1, rfl, h3, hlow ▸ (by exact_mod_cast k1), ?_⟩, ⟨m, u, rfl, h2, ?_, hup ▸ (by exact_mod_cast k2), h5⟩, g1,
      fun _ _ => ⟨hdep _ ?_, hdep _ ?_⟩⟩
    · exact le_trans (hup ▸ (by exact_mod_cast k2)) h5
    · exact le_trans h3 (hlow ▸ (by exact_mod_cast k1))
    · unfold ratWidth; rw [hmd]; ring
    · unfold ratWidth; rw [hmd]; ring
end BI
