import Verif.Proofs.Elem
import Verif.Proofs.Instances
import Verif.Props.Constants
/-! # A correctly rounded mathematical library, and the constants -/

namespace BI
open Set

theorem Fn.Ext.unique {f : Fn} {x e e' : EReal} (h : f.Ext x e) (h' : f.Ext x e') : e = e' := by
  rcases h with ⟨r, _, rfl, rfl⟩ | ⟨rfl, h⟩ | ⟨rfl, h⟩ <;> rcases h' with ⟨s, _, h1, rfl⟩ | ⟨h1, h'⟩ | ⟨h1, h'⟩
  · rw [EReal.coe_eq_coe_iff.1 h1]
  · exact absurd h1 (EReal.coe_ne_bot _)
  · exact absurd h1 (EReal.coe_ne_top _)
  · exact absurd h1.symm (EReal.coe_ne_bot _)
  · rw [h] at h'; exact Option.some.inj h'
  · cases h1
  · exact absurd h1.symm (EReal.coe_ne_top _)
  · cases h1
  · rw [h] at h'; exact Option.some.inj h'

section
variable {f : Fmt}

/-- An extended real number, rounded. -/
noncomputable def roundE (f : Fmt) (r : RMode) (e : EReal) : Fl f :=
  open Classical in if e = ⊤ then .inf false else if e = ⊥ then .inf true else rnd f r false e.toReal

theorem roundE_rounds (r : RMode) (e : EReal) : Rounds f r e (roundE f r e) := by
  unfold roundE
  by_cases h1 : e = ⊤
  · rw [if_pos h1, h1]; exact Rounds.exact (val_inf false)
  · by_cases h2 : e = ⊥
    · rw [if_neg h1, if_pos h2, h2]; exact Rounds.exact (val_inf true)
    · rw [if_neg h1, if_neg h2]
      have := rnd_rounds (f := f) r false e.toReal
      rw [EReal.coe_toReal h1 h2] at this
      exact this

/-- The library that rounds correctly, in all directions. -/
noncomputable def idealLib (f : Fmt) : Lib (Fl f) := fun fn r a =>
  open Classical in
  match val a with
  | none => some .nan
  | some x => if h : ∃ e, fn.Ext x e then some (roundE f r h.choose) else some .nan

theorem idealLib_eq {fn : Fn} {a : Fl f} {x e : EReal} (ha : val a = some x) (he : fn.Ext x e) (r : RMode) :
    idealLib f fn r a = some (roundE f r e) := by
  unfold idealLib
  rw [ha]
  have h : ∃ e, fn.Ext x e := ⟨e, he⟩
  simp only [dif_pos h]
  rw [h.choose_spec.unique he]

theorem Env.ideal_ok (V : Env (Fl f)) (fn : Fn) (hl : V.lib = idealLib f) (hk : V.kind = .std ∨ (V.kind = .opp ∧ fn.oppSwitches = true)) :
    V.FnOk (IsRoundDown (Fl f)) (IsRoundUp (Fl f)) fn := by
  refine .inl ⟨hk, fun a x e ha he => ?_⟩
  rw [hl]
  exact Rounds.approx (fun r => idealLib_eq ha he r) fun r => roundE_rounds r e
end

section
variable {T : Type} [Num T] [Val T]

theorem Env.FnOk.directed {V : Env T} {f : Fn} (h : V.FnOk (IsRoundDown T) (IsRoundUp T) f) : V.FnOk LeB GeB f := by
  rcases h with ⟨hk, h⟩ | h
  · refine .inl ⟨hk, fun a x e ha he r => ?_⟩
    obtain ⟨c, z, h1, h2, h3, h4⟩ := h a x e ha he r
    exact ⟨c, z, h1, h2, fun h => (h3 h).2.1, fun h => (h4 h).2.1⟩
  · exact .inr h

theorem Brackets.ok {K : PiConst T} (h : Brackets K) : PiOk LeB GeB K := by
  obtain ⟨⟨l, u, h1, h2, h3, h4⟩, ⟨l', u', h1', h2', h3', h4'⟩, l'', u'', h1'', h2'', h3'', h4''⟩ := h
  exact ⟨⟨l, h1, h3⟩, ⟨u, h2, h4⟩, ⟨l', h1', h3'⟩, ⟨u', h2', h4'⟩, ⟨l'', h1'', h3''⟩, ⟨u'', h2'', h4''⟩⟩

theorem smallest_round {z : Itv T} {r : ℝ} (h : SmallestEnclosure z {r}) :
    (∃ l, val z.lower = some l ∧ IsRoundDown T l r) ∧ ∃ u, val z.upper = some u ∧ IsRoundUp T u r := by
  obtain ⟨h1, h2⟩ := h
  obtain ⟨l, u, h3, h4, h5, h6⟩ := h1 rfl
  refine ⟨⟨l, h3, ⟨_, h3⟩, h5, ?_⟩, u, h4, ⟨_, h4⟩, h6, ?_⟩
  · rintro w ⟨t, ht⟩ hw
    exact ((h2 ⟨t, z.upper⟩ (by rintro _ rfl; exact ⟨w, u, ht, h4, hw, h6⟩)).2 l u w u h3 h4 ht h4).1
  · rintro w ⟨t, ht⟩ hw
    exact ((h2 ⟨z.lower, t⟩ (by rintro _ rfl; exact ⟨l, w, h3, ht, h5, hw⟩)).2 l u l w h3 h4 h3 ht).2

theorem Neighbours.ok {K : PiConst T} (h : Neighbours K) : PiOk (IsRoundDown T) (IsRoundUp T) K := by
  obtain ⟨h1, h2, h3⟩ := h
  obtain ⟨a1, a2⟩ := smallest_round h1
  obtain ⟨b1, b2⟩ := smallest_round h2
  obtain ⟨c1, c2⟩ := smallest_round h3
  exact ⟨a1, a2, b1, b2, c1, c2⟩
end

/-- `interval<double>` with `rounded_transc_std` over a correctly rounded library. -/
noncomputable def dblStd : Env (Fl Fmt.double) := { dbl with kind := .std, lib := idealLib _ }

/-- `interval<double>` with `rounded_transc_opp` over a correctly rounded library. -/
noncomputable def dblOpp : Env (Fl Fmt.double) := { dbl with lib := idealLib _ }

theorem dblStd_tight : dblStd.Tight := dblStd.fl_tight (by simp [dblStd])
theorem dblOpp_tight : dblOpp.Tight := dblOpp.fl_tight (by simp [dblOpp, dbl])
theorem dblStd_fn (f : Fn) : dblStd.FnOk (IsRoundDown (Fl Fmt.double)) (IsRoundUp (Fl Fmt.double)) f := dblStd.ideal_ok f rfl (.inl rfl)

end BI
