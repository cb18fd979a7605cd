import Verif.Model.Client
import Verif.Model.Expr
import Verif.Model.Compare
import Verif.Model.StdFn
/-!
# Two checking policies, one of which ends a computation earlier

`RCut G r r'`, `MCut G a b`: the second computation does the same as the first, or the first ended with an error `e` for
which `G e none` holds (nothing is said about the second one then) or `G e (some e')` (the second one ended at the same
place with `e'`).
-/

set_option linter.unusedSectionVars false

namespace BI

/-- See the header. -/
abbrev CutRel := Err → Option Err → Prop

/-- See the header. -/
def RCut (G : CutRel) {α : Type} (r r' : Res α) : Prop :=
  r' = r ∨ ∃ e, r = .error e ∧ (G e none ∨ ∃ e', G e (some e') ∧ r' = .error e')

/-- See the header. -/
def MCut {W : Type} (G : CutRel) {α : Type} (a b : M W α) : Prop :=
  ∀ s, b s = a s ∨ ∃ e, (a s).1 = .error e ∧ (G e none ∨ ∃ e', G e (some e') ∧ b s = (.error e', (a s).2))

variable {G : CutRel} {W : Type} {α β γ δ : Type}

namespace RCut
theorem refl (r : Res α) : RCut G r r := .inl rfl

theorem bind {r r' : Res α} {f g : α → Res β} (h : RCut G r r') (hf : ∀ x, RCut G (f x) (g x)) :
    RCut G (r >>= f) (r' >>= g) := by
  rcases h with rfl | ⟨e, rfl, h⟩
  · cases r' with
    | error e => exact .inl rfl
    | ok x => exact hf x
  · refine .inr ⟨e, rfl, ?_⟩
    rcases h with h | ⟨e', h, rfl⟩
    · exact .inl h
    · exact .inr ⟨e', h, rfl⟩

theorem ite {c : Prop} [Decidable c] {a b r t : Res α} (h1 : RCut G a r) (h2 : RCut G b t) :
    RCut G (if c then a else b) (if c then r else t) := by
  by_cases h : c
  · simp only [if_pos h]; exact h1
  · simp only [if_neg h]; exact h2
end RCut

namespace MCut
theorem refl (a : M W α) : MCut G a a := fun _ => .inl rfl

theorem lift {r r' : Res α} (h : RCut G r r') : MCut G (BI.lift r : M W α) (BI.lift r') := fun s => by
  rcases h with rfl | ⟨e, rfl, h⟩
  · exact .inl rfl
  · refine .inr ⟨e, rfl, ?_⟩
    rcases h with h | ⟨e', h, rfl⟩
    · exact .inl h
    · exact .inr ⟨e', h, rfl⟩

theorem bind {a b : M W α} {f g : α → M W β} (h : MCut G a b) (hf : ∀ x, MCut G (f x) (g x)) :
    MCut G (a >>= f) (b >>= g) := fun s => by
  change M.bind b g s = M.bind a f s ∨ ∃ e, (M.bind a f s).1 = .error e ∧
    (G e none ∨ ∃ e', G e (some e') ∧ M.bind b g s = (.error e', (M.bind a f s).2))
  have h := h s
  unfold M.bind
  rcases ha : a s with ⟨o, s'⟩
  rw [ha] at h
  cases o with
  | error e =>
    rcases h with h | ⟨e1, h1, h⟩
    · rw [h]; exact .inl rfl
    · cases h1
      refine .inr ⟨e, rfl, ?_⟩
      rcases h with h | ⟨e', h, h2⟩
      · exact .inl h
      · rw [h2]; exact .inr ⟨e', h, rfl⟩
  | ok x =>
    rcases h with h | ⟨e1, h1, h⟩
    · rw [h]; exact hf x s'
    · cases h1

theorem ite {c : Prop} [Decidable c] {a b r t : M W α} (h1 : MCut G a r) (h2 : MCut G b t) :
    MCut G (if c then a else b) (if c then r else t) := by
  by_cases h : c
  · simp only [if_pos h]; exact h1
  · simp only [if_neg h]; exact h2

theorem choose {a b r t : M W α} (h1 : MCut G a r) (h2 : MCut G b t) : MCut G (M.choose a b) (M.choose r t) := fun s => by
  unfold M.choose
  by_cases hs : s.sched 0 = true
  · simp only [if_pos hs]; exact h1 _
  · simp only [if_neg hs]; exact h2 _

theorem any2 {a a' : M W α} {b b' : M W β} (ha : MCut G a a') (hb : MCut G b b') : MCut G (M.any2 a b) (M.any2 a' b') :=
  choose (ha.bind fun _ => hb.bind fun _ => refl _) (hb.bind fun _ => ha.bind fun _ => refl _)

theorem any3 {a a' : M W α} {b b' : M W β} {c c' : M W γ} (ha : MCut G a a') (hb : MCut G b b') (hc : MCut G c c') :
    MCut G (M.any3 a b c) (M.any3 a' b' c') :=
  choose (ha.bind fun _ => (hb.any2 hc).bind fun _ => refl _)
    (choose (hb.bind fun _ => (ha.any2 hc).bind fun _ => refl _) (hc.bind fun _ => (ha.any2 hb).bind fun _ => refl _))

theorem pair {a a' : M W α} {b b' : M W β} (ha : MCut G a a') (hb : MCut G b b') : MCut G (BI.pair a b) (BI.pair a' b') :=
  ha.any2 hb

theorem quad {a a' : M W α} {b b' : M W β} {c c' : M W γ} {d d' : M W δ} (ha : MCut G a a') (hb : MCut G b b')
    (hc : MCut G c c') (hd : MCut G d d') : MCut G (BI.quad a b c d) (BI.quad a' b' c' d') :=
  choose (choose (ha.bind fun _ => (hb.any3 hc hd).bind fun _ => refl _) (hb.bind fun _ => (ha.any3 hc hd).bind fun _ => refl _))
    (choose (hc.bind fun _ => (ha.any3 hb hd).bind fun _ => refl _) (hd.bind fun _ => (ha.any3 hb hc).bind fun _ => refl _))
end MCut

/-- Two checking policies, function by function. -/
structure CCut (G : CutRel) {T : Type} (C C' : Checking T) : Prop where
  posInf : RCut G C.posInf C'.posInf
  negInf : RCut G C.negInf C'.negInf
  nan : RCut G C.nan C'.nan
  isNan : ∀ x, RCut G (C.isNan x) (C'.isNan x)
  emptyLower : RCut G C.emptyLower C'.emptyLower
  emptyUpper : RCut G C.emptyUpper C'.emptyUpper
  isEmpty : ∀ l u, RCut G (C.isEmpty l u) (C'.isEmpty l u)

/-- The policies `P` with another checking policy. -/
def Policies.recheck {m : Type → Type} {T : Type} (P : Policies m T) (C : Checking T) : Policies m T :=
  ⟨P.rnd, P.unp, C, P.cur⟩

/-- What the proofs need. -/
structure PCut (G : CutRel) {T : Type} (P : Policies (M W) T) (C' : Checking T) : Prop where
  chk : CCut G P.chk C'
  scope : ∀ {α : Type} {a b : M W α}, MCut G a b → MCut G (P.rnd.scope a) (P.rnd.scope b)
  scopeU : ∀ {α : Type} {a b : M W α}, MCut G a b → MCut G (P.unp.scope a) (P.unp.scope b)

section
variable {T : Type} {P : Policies (M W) T} {C C' : Checking T}
theorem re_rnd : (P.recheck C').rnd = P.rnd := rfl
theorem re_unp : (P.recheck C').unp = P.unp := rfl
theorem re_chk : (P.recheck C').chk = C' := rfl
theorem re_cur {α : Type} (f : RMode → Option α) : (P.recheck C').cur f = P.cur f := rfl
theorem re_unprot : (P.recheck C').unprot = P.unprot.recheck C' := rfl

theorem PCut.unprot (h : PCut G P C') : PCut G P.unprot C' := ⟨h.chk, h.scopeU, h.scopeU⟩

variable [Num T]

/-! ## Functions of the checking policy only -/

macro "rcut_step" h:term : tactic => `(tactic| first
  | with_reducible exact RCut.refl _
  | with_reducible exact CCut.posInf $h | with_reducible exact CCut.negInf $h | with_reducible exact CCut.nan $h
  | with_reducible exact CCut.isNan $h _ | with_reducible exact CCut.emptyLower $h | with_reducible exact CCut.emptyUpper $h
  | with_reducible exact CCut.isEmpty $h _ _
  | with_reducible refine RCut.ite ?_ ?_
  | (refine RCut.bind ?_ (fun _ => ?_)))

macro "rcut_auto" h:term : tactic => `(tactic| repeat' (rcut_step $h))

theorem emptyI_rcut (h : CCut G C C') : RCut G (emptyI C) (emptyI C') := by unfold emptyI; rcut_auto h
theorem wholeI_rcut (h : CCut G C C') : RCut G (wholeI C) (wholeI C') := by unfold wholeI; rcut_auto h
theorem testI_rcut (h : CCut G C C') (x : Itv T) : RCut G (testI C x) (testI C' x) := by unfold testI; rcut_auto h
theorem testII_rcut (h : CCut G C C') (x y : Itv T) : RCut G (testII C C x y) (testII C' C' x y) := by
  unfold testII; rcut_auto h
theorem testTI_rcut (h : CCut G C C') (x : T) (y : Itv T) : RCut G (testTI C x y) (testTI C' x y) := by
  unfold testTI; rcut_auto h
theorem testIT_rcut (h : CCut G C C') (x : Itv T) (y : T) : RCut G (testIT C x y) (testIT C' x y) := by
  unfold testIT; rcut_auto h
theorem testTT_rcut (h : CCut G C C') (x y : T) : RCut G (testTT C x y) (testTT C' x y) := by
  unfold testTT; rcut_auto h
theorem reItv_rcut (h : CCut G C C') (r : Itv T) : RCut G (reItv C C r) (reItv C' C' r) := by
  unfold reItv emptyI; rcut_auto h
theorem ctorT_rcut (h : CCut G C C') (v : T) : RCut G (ctorT C v) (ctorT C' v) := by
  unfold ctorT emptyI; rcut_auto h
theorem ctorTT_rcut (h : CCut G C C') (l u : T) : RCut G (ctorTT C l u) (ctorTT C' l u) := by
  unfold ctorTT emptyI; rcut_auto h
theorem hullTT_rcut (h : CCut G C C') (l u : T) : RCut G (hullTT C l u) (hullTT C' l u) := by
  unfold hullTT emptyI; rcut_auto h
theorem checkedLower_rcut (h : CCut G C C') (x : Itv T) : RCut G (checkedLower C x) (checkedLower C' x) := by
  unfold checkedLower testI; rcut_auto h
theorem checkedUpper_rcut (h : CCut G C C') (x : Itv T) : RCut G (checkedUpper C x) (checkedUpper C' x) := by
  unfold checkedUpper testI; rcut_auto h
theorem zeroIn_rcut (h : CCut G C C') (x : Itv T) : RCut G (zeroIn C x) (zeroIn C' x) := by
  unfold zeroIn testI; rcut_auto h
theorem inI_rcut (h : CCut G C C') (x : T) (y : Itv T) : RCut G (inI C x y) (inI C' x y) := by
  unfold inI testTI; rcut_auto h
theorem subset_rcut (h : CCut G C C') (x y : Itv T) : RCut G (subset C x y) (subset C' x y) := by
  unfold subset isEmptyI testI; rcut_auto h
theorem properSubset_rcut (h : CCut G C C') (x y : Itv T) : RCut G (properSubset C C x y) (properSubset C' C' x y) := by
  unfold properSubset isEmptyI testI; rcut_auto h
theorem overlap_rcut (h : CCut G C C') (x y : Itv T) : RCut G (overlap C C x y) (overlap C' C' x y) := by
  unfold overlap testII; rcut_auto h
theorem singleton_rcut (h : CCut G C C') (x : Itv T) : RCut G (singleton C x) (singleton C' x) := by
  unfold singleton isEmptyI testI; rcut_auto h
theorem equal_rcut (h : CCut G C C') (x y : Itv T) : RCut G (equal C C x y) (equal C' C' x y) := by
  unfold equal isEmptyI testI; rcut_auto h
theorem intersect_rcut (h : CCut G C C') (x y : Itv T) : RCut G (intersect C x y) (intersect C' x y) := by
  unfold intersect testII emptyI; rcut_auto h
theorem hullII_rcut (h : CCut G C C') (x y : Itv T) : RCut G (hullII C x y) (hullII C' x y) := by
  unfold hullII testI emptyI; rcut_auto h
theorem hullIT_rcut (h : CCut G C C') (x : Itv T) (y : T) : RCut G (hullIT C x y) (hullIT C' x y) := by
  unfold hullIT testI testT emptyI; rcut_auto h
theorem hullTI_rcut (h : CCut G C C') (x : T) (y : Itv T) : RCut G (hullTI C x y) (hullTI C' x y) := by
  unfold hullTI testI testT emptyI; rcut_auto h
theorem norm_rcut (h : CCut G C C') (x : Itv T) : RCut G (norm C x) (norm C' x) := by
  unfold norm testI; rcut_auto h
theorem negI_rcut (h : CCut G C C') (x : Itv T) : RCut G (negI C x) (negI C' x) := by
  unfold negI testI emptyI; rcut_auto h
theorem absI_rcut (h : CCut G C C') (x : Itv T) : RCut G (absI C x) (absI C' x) := by
  unfold absI negI testI emptyI; rcut_auto h
theorem maxII_rcut (h : CCut G C C') (x y : Itv T) : RCut G (maxII C x y) (maxII C' x y) := by
  unfold maxII testII emptyI; rcut_auto h
theorem maxIT_rcut (h : CCut G C C') (x : Itv T) (y : T) : RCut G (maxIT C x y) (maxIT C' x y) := by
  unfold maxIT testIT emptyI; rcut_auto h
theorem maxTI_rcut (h : CCut G C C') (x : T) (y : Itv T) : RCut G (maxTI C x y) (maxTI C' x y) := by
  unfold maxTI testTI emptyI; rcut_auto h
theorem minII_rcut (h : CCut G C C') (x y : Itv T) : RCut G (minII C x y) (minII C' x y) := by
  unfold minII testII emptyI; rcut_auto h
theorem minIT_rcut (h : CCut G C C') (x : Itv T) (y : T) : RCut G (minIT C x y) (minIT C' x y) := by
  unfold minIT testIT emptyI; rcut_auto h
theorem minTI_rcut (h : CCut G C C') (x : T) (y : Itv T) : RCut G (minTI C x y) (minTI C' x y) := by
  unfold minTI testTI emptyI; rcut_auto h
theorem cmpII_rcut (h : CCut G C C') (r : Rel) (x y : Itv T) : RCut G (cmpII r C C x y) (cmpII r C' C' x y) := by
  unfold cmpII; rcut_auto h
theorem cmpIT_rcut (h : CCut G C C') (r : Rel) (x : Itv T) (y : T) : RCut G (cmpIT r C x y) (cmpIT r C' x y) := by
  unfold cmpIT; rcut_auto h
end
end BI
