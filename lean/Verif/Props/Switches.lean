import Verif.Proofs.Erase
import Verif.Proofs.Switches
import Verif.Proofs.Instances
/-!
# C90: the number of writes to the rounding mode

The machine is given a counter (`Ctl.counting`) that each write to the rounding mode increments. Nothing is assumed about
the rounding control. `protPolicies c.counting k lib C` are the policies of `save_state<rounded_transc_k<...>>`.
-/

namespace BI

section
variable {T : Type} [Num T] (c : Ctl) (lib : Lib T) (C : Checking T) {α : Type}

/-- The counter does not disturb: with and without it a program has the same outcome, the same control word at the end, and
asks the same questions about the order of evaluation. -/
theorem C90_counting (k : RKind) (q : Prog T α) (s : St c.counting.W) :
    q.run (libPolicies c k lib C) ⟨s.cw.1, s.sched⟩ =
      ((q.run (libPolicies c.counting k lib C) s).1,
        ⟨(q.run (libPolicies c.counting k lib C) s).2.cw.1, (q.run (libPolicies c.counting k lib C) s).2.sched⟩) :=
  q.erase (libPolicies_erase k lib C) s

/-- With the opposite trick: an upper bound for each call, of the protected and of the unprotected type. For instance 2 and
0 for the four operations, 4 and 2 for square roots. -/
theorem C90_call_opp (q : Call T α) (s : St c.counting.W) :
    (∃ n, n ≤ Price.opp.call q ∧ Writes (q.run (protPolicies c.counting .opp lib C)) s n) ∧
    (∃ n, n ≤ Price.opp.unprot.call q ∧ Writes (q.run (protPolicies c.counting .opp lib C).unprot) s n) := by
  obtain ⟨h1, h2, _⟩ := q.cost (oppPolicies_cost lib C) s
  obtain ⟨k1, k2, _⟩ := q.cost (oppPolicies_cost lib C).unprot s
  exact ⟨⟨_, by omega, (Nat.add_sub_cancel' h1).symm⟩, ⟨_, by omega, (Nat.add_sub_cancel' k1).symm⟩⟩

/-- Without it: one write for each operation, and one more if the type is protected. -/
theorem C90_call_std (q : Call T α) (s : St c.counting.W) :
    (∃ n, n ≤ Price.std.call q ∧ Writes (q.run (protPolicies c.counting .std lib C)) s n) ∧
    (∃ n, n ≤ Price.std.unprot.call q ∧ Writes (q.run (protPolicies c.counting .std lib C).unprot) s n) := by
  obtain ⟨h1, h2, _⟩ := q.cost (stdPolicies_cost lib C) s
  obtain ⟨k1, k2, _⟩ := q.cost (stdPolicies_cost lib C).unprot s
  exact ⟨⟨_, by omega, (Nat.add_sub_cancel' h1).symm⟩, ⟨_, by omega, (Nat.add_sub_cancel' k1).symm⟩⟩

/-- Exact arithmetic does not touch the rounding mode. -/
theorem C90_call_exact (q : Call T α) (s : St c.counting.W) :
    Writes (q.run (libPolicies c.counting .exact lib C)) s 0 ∧ (q.run (libPolicies c.counting .exact lib C) s).2.cw = s.cw := by
  obtain ⟨h1, h2, h3⟩ := q.cost (exactPolicies_cost lib C) s
  rw [Price.free_call] at h2
  have e : (q.run (libPolicies c.counting .exact lib C) s).2.cw.2 = s.cw.2 := Nat.le_antisymm h2 h1
  exact ⟨e, h3 e⟩

/-- Within a region the opposite trick needs no write at all for steady calls (everything but midpoints, roots and those
functions of the mathematical library that have no symmetry), whatever they return or throw. -/
theorem C90_still (q : Prog T α) (hq : q.All (fun _ => Call.Steady) true) (s : St c.counting.W) :
    Writes (q.run (protPolicies c.counting .opp lib C).unprot) s 0 ∧
    (q.run (protPolicies c.counting .opp lib C).unprot s).2.cw = s.cw := by
  obtain ⟨h1, h2, h3⟩ := q.cost_steady (oppPolicies_cost lib C).unprot rfl rfl hq s
  have e : (q.run (protPolicies c.counting .opp lib C).unprot s).2.cw.2 = s.cw.2 := Nat.le_antisymm h2 h1
  exact ⟨e, h3 e⟩

/-- So a region in which any number of steady calls are made writes the mode exactly twice: when its rounding object is
created and when it is destroyed, also if an exception leaves it. -/
theorem C90_region (q : Prog T α) (hq : q.All (fun _ => Call.Steady) true) (s : St c.counting.W) :
    Writes ((Prog.region q .ret).run (protPolicies c.counting .opp lib C)) s 2 := by
  have h := region_writes (arithOf c.counting .opp lib)
    (q.cost_steady (oppPolicies_cost lib C).unprot rfl rfl hq) s
  have e : (Prog.region q .ret).run (protPolicies c.counting .opp lib C) =
      (saveState c.counting (initOf c.counting .opp) (arithOf c.counting .opp lib)).scope
        (q.run (protPolicies c.counting .opp lib C).unprot) := M.bind_pure _
  rw [e]
  exact congrArg Prod.snd h

/-- Horner's scheme as in doc/rounding.htm 521-535: two writes for every polynomial. -/
theorem C90_horner (x : Itv T) (p : List (Itv T)) (s : St c.counting.W) :
    Writes (horner (protPolicies c.counting .opp lib C) x p) s 2 := by
  have h := oppPolicies_cost (c := c) lib C
  have hb : Cost 0 (match p.reverse with
    | [] => (lift (.error .ub) : M c.counting.W (Itv T))
    | d :: ds => do
      let a ← lift (reItv C C x)
      let y ← lift (reItv C C d)
      let y ← hornerLoop (protPolicies c.counting .opp lib C) a ds y
      lift (reItv C C y)) := by
    cases p.reverse with
    | nil => exact Cost.lift _
    | cons d ds =>
      exact (Cost.lift _).free fun a => (Cost.lift _).free fun y => (hornerLoop_cost h rfl _ _ _).free fun y => Cost.lift _
  exact congrArg Prod.snd (region_writes (arithOf c.counting .opp lib) hb s)

/-- The four ways to add `n` intervals to one (no operand is empty): protected additions write `2 n` times with the
opposite trick and `3 n` times without; in a region it is twice, and `2 n + 1` times. -/
theorem C90_sum (hC : ∀ a b, C.isEmpty a b = .ok false) (ys : List (Itv T)) (x z : Itv T) (s : St c.counting.W) :
    (((sumProg ys x).run (protPolicies c.counting .opp lib C) s).1 = .ok z →
      Writes ((sumProg ys x).run (protPolicies c.counting .opp lib C)) s (2 * ys.length)) ∧
    (((sumProg ys x).run (protPolicies c.counting .std lib C) s).1 = .ok z →
      Writes ((sumProg ys x).run (protPolicies c.counting .std lib C)) s (3 * ys.length)) ∧
    Writes ((Prog.region (sumProg ys x) .ret).run (protPolicies c.counting .opp lib C)) s 2 ∧
    (((Prog.region (sumProg ys x) .ret).run (protPolicies c.counting .std lib C) s).1 = .ok z →
      Writes ((Prog.region (sumProg ys x) .ret).run (protPolicies c.counting .std lib C)) s (2 * ys.length + 1)) := by
  have ho : ∀ f : RMode → Option T, Spends 0 (upNeg c.counting f) := fun f => Spends.of_cost (upNeg_cost f)
  have he : ∀ f : RMode → Option T, Spends 0 (evalIn c.counting f) := fun f => Spends.of_cost (Cost.evalIn f)
  have hd : ∀ f : RMode → Option T, Spends 1 (dn c.counting f) := fun f =>
    (Spends.modify (fun _ => rfl) : Spends (c := c) 1 _).bind fun _ => he f
  have hu : ∀ f : RMode → Option T, Spends 1 (upw c.counting f) := fun f =>
    (Spends.modify (fun _ => rfl) : Spends (c := c) 1 _).bind fun _ => he f
  have h1 : ∀ x y, Spends 2 (addII (protPolicies c.counting .opp lib C) x y) :=
    addII_spends hC (fun _ _ => ho _) (fun x y => he (fun r => Num.add r x y)) fun h => Spends.scope .opp _ h
  have h2 : ∀ x y, Spends 3 (addII (protPolicies c.counting .std lib C) x y) :=
    addII_spends hC (fun x y => hd (fun r => Num.add r x y)) (fun x y => hu (fun r => Num.add r x y))
      fun h => Spends.scope .std _ h
  have h3 : ∀ x y, Spends 2 (addII (protPolicies c.counting .std lib C).unprot x y) :=
    addII_spends hC (fun x y => hd (fun r => Num.add r x y)) (fun x y => hu (fun r => Num.add r x y)) fun h => h
  refine ⟨fun hz => ?_, fun hz => ?_, C90_region c lib C _ (sumProg_steady ys x true) s, fun hz => ?_⟩
  · have h := sumProg_spends h1 ys x s z hz
    rw [mul_comm] at h; exact h
  · have h := sumProg_spends h2 ys x s z hz
    rw [mul_comm] at h; exact h
  · have e : (Prog.region (sumProg ys x) .ret).run (protPolicies c.counting .std lib C) =
        (saveState c.counting (initOf c.counting .std) (arithOf c.counting .std lib)).scope
          ((sumProg ys x).run (protPolicies c.counting .std lib C).unprot) := M.bind_pure _
    rw [e] at hz ⊢
    have h := Spends.scope .std (arithOf c.counting .std lib) (sumProg_spends h3 ys x) s z hz
    refine h.trans ?_
    simp only [reduceCtorEq, if_false]
    omega

end

/-! ## Examples -/

/-- glibc's control word with a counter, and `checking_no_nan<double, checking_no_empty<double>>` -/
private abbrev glibc : Ctl := c99 Unit feGlibc
private abbrev strict : Checking (Fl Fmt.double) := ChkSpec.strict.eval _ true
private def start : St glibc.counting.W := ⟨(⟨.near, ()⟩, 0), fun n => n % 2 == 0⟩

example : ∀ a b, strict.isEmpty a b = .ok false := fun _ _ => rfl

private abbrev opp := protPolicies glibc.counting .opp (fun _ _ (x : Fl Fmt.double) => some x) strict
private abbrev std := protPolicies glibc.counting .std (fun _ _ (x : Fl Fmt.double) => some x) strict

/-! Three sums, with and without the opposite trick, protected and in a region. -/

example : Writes ((sumProg [litI 1 2, litI 3 4, litI (-5) 6] (litI 0 1)).run opp) start 6 := by unfold Writes; decide +kernel
example : Writes ((sumProg [litI 1 2, litI 3 4, litI (-5) 6] (litI 0 1)).run std) start 9 := by unfold Writes; decide +kernel
example : Writes ((Prog.region (sumProg [litI 1 2, litI 3 4, litI (-5) 6] (litI 0 1)) .ret).run opp) start 2 := by
  unfold Writes; decide +kernel
example : Writes ((Prog.region (sumProg [litI 1 2, litI 3 4, litI (-5) 6] (litI 0 1)) .ret).run std) start 7 := by
  unfold Writes; decide +kernel

/-! The sums return. -/

example : ((sumProg [litI 1 2, litI 3 4] (litI 0 1)).run opp start).1 = .ok (litI 4 7) := by decide +kernel
example : ((Prog.region (sumProg [litI 1 2, litI 3 4] (litI 0 1)) .ret).run std start).1 = .ok (litI 4 7) := by
  decide +kernel

/-! Bounds that are attained. -/

example : Price.opp.call (Call.sqrt (litI 4 9 : Itv (Fl Fmt.double))) = 4 ∧
    Writes ((Call.sqrt (litI 4 9)).run opp) start 4 ∧ Writes ((Call.sqrt (litI 4 9)).run opp.unprot) start 2 := by
  unfold Writes; decide +kernel
example : Price.opp.call (Call.pow (litI 2 4 : Itv (Fl Fmt.double)) (-2)) = 4 ∧
    Writes ((Call.pow (litI 2 4) (-2)).run opp) start 4 := by unfold Writes; decide +kernel
example : Price.std.call (Call.mulII (litI (-2) 4 : Itv (Fl Fmt.double)) (litI (-1) 3)) = 5 ∧
    Writes ((Call.mulII (litI (-2) 4) (litI (-1) 3)).run std) start 5 := by unfold Writes; decide +kernel
example : Price.std.call (Call.pow (litI 2 4 : Itv (Fl Fmt.double)) 3) = 5 ∧
    Writes ((Call.pow (litI 2 4) 3).run std) start 5 := by unfold Writes; decide +kernel

/-! Programs that meet the hypotheses of `C90_region`: a product and a power, then a client exception. -/

example : (Prog.call (.mulII (litI 1 2) (litI 3 4)) fun z => .call (.pow z 3) fun _ =>
    (.fail (.user 7) : Prog (Fl Fmt.double) Unit)).All (fun _ => Call.Steady) true :=
  ⟨trivial, fun _ => ⟨trivial, fun _ => trivial⟩⟩

end BI
