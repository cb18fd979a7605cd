import Verif.Model.Examples
import Verif.Proofs.Instances
import Verif.Proofs.EnclPow
import Verif.Proofs.EnclUtil
import Mathlib.Algebra.BigOperators.Fin
/-! # The example programs: loops, and the operations point by point -/

set_option linter.unusedSectionVars false

namespace BI
open Set

section
variable {W : Type} {σ : Type} {J : Inv W}

theorem forRange_sim {f : ℕ → σ → M W σ} {g : ℕ → σ → Res σ} (h : ∀ k s, Sim J (f k s) (g k s)) (lo n : ℕ) (s : σ) :
    Sim J (forRange lo n f s) (forRange lo n g s) := by
  induction n generalizing lo s with
  | zero => exact Sim.pure _
  | succ n ih => exact (h lo s).bind fun s => ih _ s

/-- Rule for loops. -/
theorem forRange_post {tot : Prop} {f : ℕ → σ → Res σ} (Q : ℕ → σ → Prop) {lo n hi : ℕ} (hn : lo + n = hi) {s : σ}
    (h0 : Q lo s) (h : ∀ k s, lo ≤ k → k < hi → Q k s → Post tot (f k s) (Q (k + 1))) :
    Post tot (forRange lo n f s) (Q hi) := by
  induction n generalizing lo s with
  | zero => subst hn; exact Post.pure h0
  | succ n ih =>
    exact (h lo s le_rfl (by omega) h0).bind fun s hs => ih (by omega) hs fun k s hk => h k s (by omega)
end

section
variable {T : Type} [Num T] [Val T] [NumLaws T] {V : Env T} {x y : Itv T} {s t : T} {r q : ℝ}

theorem mem_add (hV : V.Directed) (hx : r ∈ γ x) (hy : q ∈ γ y) :
    Post True (addII V.pp x y) fun z => r + q ∈ γ z := by
  obtain ⟨_, _, ix⟩ := has_of_mem hx
  obtain ⟨_, _, iy⟩ := has_of_mem hy
  have hA := hV.dir du_weak
  exact (addII_post hA.op V.chk ix iy).mono fun z hz => hz.encl hA.D_le hA.U_ge ⟨r, hx, q, hy, rfl⟩

theorem mem_sub (hV : V.Directed) (hx : r ∈ γ x) (hy : q ∈ γ y) :
    Post True (subII V.pp x y) fun z => r - q ∈ γ z := by
  obtain ⟨_, _, ix⟩ := has_of_mem hx
  obtain ⟨_, _, iy⟩ := has_of_mem hy
  have hA := hV.dir du_weak
  exact (subII_post hA.op V.chk ix iy).mono fun z hz => hz.encl hA.D_le hA.U_ge ⟨r, hx, q, hy, rfl⟩

theorem mem_mul (hV : V.Directed) (hx : r ∈ γ x) (hy : q ∈ γ y) :
    Post True (mulII V.pp x y) fun z => r * q ∈ γ z := by
  obtain ⟨_, _, ix⟩ := has_of_mem hx
  obtain ⟨_, _, iy⟩ := has_of_mem hy
  have hA := hV.dir du_weak
  exact (mulII_post hA.op V.chk ix iy).mono fun z hz => hz.encl hA.D_le hA.U_ge ⟨r, hx, q, hy, rfl⟩

theorem mem_div (hV : V.Directed) (hx : r ∈ γ x) (hy : q ∈ γ y) (h0 : (0 : ℝ) ∉ γ y) :
    Post True (divII V.pp x y) fun z => r / q ∈ γ z := by
  obtain ⟨_, _, ix⟩ := has_of_mem hx
  obtain ⟨_, _, iy⟩ := has_of_mem hy
  have hA := hV.dir du_weak
  exact (divII_nz_post (hV.div du_weak) V.chk ix iy h0).mono fun z hz =>
    hz.encl hA.D_le hA.U_ge ⟨r, hx, q, hy, fun h => h0 (h ▸ hy), rfl⟩

theorem mem_reItv (hx : r ∈ γ x) : Post True (lift (reItv V.pp.chk V.pp.chk x) : Res (Itv T)) fun z => r ∈ γ z := by
  obtain ⟨_, _, ix⟩ := has_of_mem hx
  exact Post.of_eq (reItv_ok V.chk ix) hx

end

/-! ## Horner -/

section
variable {W : Type} {T : Type} [Num T] {I J : Inv W} {P : Policies (M W) T} {B : Arith Res T} {C : Checking T}

theorem hornerLoop_sim (h : PSim I J P B C) (a : Itv T) (cs : List (Itv T)) (y : Itv T) :
    Sim J (hornerLoop P a cs y) (hornerLoop (purePolicies B C) a cs y) := by
  induction cs generalizing y with
  | nil => exact Sim.pure _
  | cons c cs ih =>
    refine (mulII_sim h.unprot _ _).bind fun q => ?_
    obtain rfl := h.chk
    exact (Sim.lift _).bind fun c => (addII_sim h.unprot _ _).bind fun y => ih y

theorem horner_sim (h : PSim I J P B C) (x : Itv T) (p : List (Itv T)) :
    Sim I (horner P x p) (horner (purePolicies B C) x p) := by
  unfold horner
  rw [pure_scope]
  refine h.scope ?_
  cases p.reverse with
  | nil => exact Sim.lift _
  | cons c cs =>
    have hl := hornerLoop_sim h
    obtain rfl := h.chk
    exact (Sim.lift _).bind fun a => (Sim.lift _).bind fun y => (hl _ _ _).bind fun y => Sim.lift _
end

section
variable {T : Type} [Num T] [Val T] [NumLaws T] {V : Env T} {x y a : Itv T} {t v : ℝ}

theorem hornerLoop_post (hV : V.Directed) (ht : t ∈ γ a) {cs : List (Itv T)} {rs : List ℝ}
    (h : List.Forall₂ (fun r c => r ∈ γ c) rs cs) (hy : v ∈ γ y) :
    Post True (hornerLoop V.pp a cs y) fun z => rs.foldl (fun v r => v * t + r) v ∈ γ z := by
  induction h generalizing y v with
  | nil => exact Post.pure hy
  | cons hc _ ih =>
    refine (mem_mul hV hy ht).bind fun q hq => ?_
    refine (mem_reItv hc).bind fun c hc => ?_
    exact (mem_add hV hq hc).bind fun z hz => ih hz

theorem horner_post (hV : V.Directed) (ht : t ∈ γ x) {p : List (Itv T)} {rs : List ℝ}
    (h : List.Forall₂ (fun r c => r ∈ γ c) rs p) (hp : p ≠ []) :
    Post True (horner V.pp x p) fun z => rs.foldr (fun r v => v * t + r) 0 ∈ γ z := by
  unfold horner
  have h' : List.Forall₂ (fun r c => r ∈ γ c) rs.reverse p.reverse := List.rel_reverse h
  have e : rs.foldr (fun r v => v * t + r) 0 = rs.reverse.foldl (fun v r => v * t + r) 0 := by
    rw [List.foldl_reverse]
  change Post True (match p.reverse with | [] => _ | c :: cs => _) _
  rw [e]
  revert h'
  generalize rs.reverse = rs'
  cases hr : p.reverse with
  | nil => exact absurd (List.reverse_eq_nil_iff.1 hr) hp
  | cons c cs =>
    rintro (_ | ⟨hc, hcs⟩)
    refine (mem_reItv ht).bind fun a ha => (mem_reItv hc).bind fun y hy => ?_
    refine (hornerLoop_post hV ha hcs hy).bind fun z hz => ?_
    rw [List.foldl_cons, zero_mul, zero_add]
    exact mem_reItv hz

/-- The value of the polynomial. -/
theorem foldr_ofFn {n : ℕ} (c : Fin n → ℝ) (t : ℝ) :
    (List.ofFn c).foldr (fun r v => v * t + r) 0 = ∑ i : Fin n, c i * t ^ (i : ℕ) := by
  induction n with
  | zero => simp
  | succ n ih =>
    rw [List.ofFn_succ, List.foldr_cons, ih, Fin.sum_univ_succ, Finset.sum_mul, add_comm]
    congr 1
    · simp
    · exact Finset.sum_congr rfl fun i _ => by rw [Fin.val_succ, pow_succ]; ring
end
end BI
