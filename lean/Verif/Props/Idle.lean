import Verif.Proofs.Idle
import Verif.Proofs.Last
import Verif.Proofs.PlatformLaws
import Verif.Model.Exact
import Verif.Model.Conv
import Mathlib.Tactic.Ring
import Mathlib.Tactic.Linarith
import Mathlib.Tactic.NormNum
/-!
# C92: the rounding control that does nothing

`rounding_control<T>` of rounding.hpp, used for all types that are not built in. With an exact base type the arithmetic classes
`_exact`, `_std` and `_opp` are expected to be interchangeable (test/add.cpp uses the last two in this way).
-/

namespace BI

section
variable {T : Type} [Num T] {lib : Lib T} {nd : Bool} {α : Type}

theorem idle_run {t : IType} {P : Policies (M idle.W) T} (E : ¬ t.NoOpp → NegExact T) (hP : t.policies idle lib nd = some P)
    (p : Prog T α) (i : Bool)
    (hp : p.All (fun _ _ q => q.RoundsToInt = false ∧ (∀ v, q.Converts v → ¬ t.NoOpp → v.NegExact) ∧
      (q.Transcendental = true → t.HasTransc)) i) :
    p.run P = p.run (idleBase (transcExact idle lib) (t.checking.eval T nd)) := by
  unfold IType.policies at hP
  cases hu : t.unprotect with
  | none => rw [hu] at hP; cases hP
  | some u =>
    rw [hu] at hP
    dsimp only at hP
    cases h1 : t.rounding.object idle lib with
    | none => rw [h1] at hP; cases hP
    | some rnd =>
      cases h2 : u.rounding.object idle lib with
      | none => rw [h1, h2] at hP; cases hP
      | some unp =>
        rw [h1, h2] at hP
        obtain rfl := (Option.some.inj hP).symm
        obtain ⟨a, rfl, a1, a2⟩ := idle_object (fun h => E fun n => h n.1) h1
        obtain ⟨b, rfl, b1, b2⟩ := idle_object (fun h => E fun n => h (n.2 u hu)) h2
        refine Prog.run_patch p i (idleBase (transcExact idle lib) (t.checking.eval T nd)) a b ?_
        have mono : ∀ (i : Bool) {β : Type} (p : Prog T β),
            p.All (fun _ _ q => q.RoundsToInt = false ∧ (∀ v, q.Converts v → ¬ t.NoOpp → v.NegExact) ∧
              (q.Transcendental = true → t.HasTransc)) i →
            p.All (fun _ _ q => MembersFit (idleBase (transcExact idle lib) (t.checking.eval T nd)).rnd a q ∧
              MembersFit (idleBase (transcExact idle lib) (t.checking.eval T nd)).unp b q) i := by
          intro i β p
          induction p generalizing i with
          | ret | fail => intro _; trivial
          | call q k ih =>
            intro h
            obtain ⟨⟨c1, c2, c3⟩, h⟩ := h
            refine ⟨⟨⟨c1, fun v hv => a1 v fun n => c2 v hv fun n' => n n'.1, fun ht => a2 (c3 ht).1⟩,
              ⟨c1, fun v hv => b1 v fun n => c2 v hv fun n' => n (n'.2 u hu), fun ht => b2 ((c3 ht).2 u hu)⟩⟩,
              fun x => ih x i (h x)⟩
          | region body k ihb ih => exact fun h => ⟨ihb true h.1, fun x => ih x i (h.2 x)⟩
        exact mono i p hp

/-! ## The mode of the machine -/

/-- The mode stays as it is. -/
def stillInv : Inv idle.W := ⟨fun _ => True, Eq, fun _ _ => rfl, fun _ _ _ => Eq.trans⟩

theorem modify_still : Last stillInv (M.modify id : M idle.W Unit) := fun _ _ => ⟨rfl, trivial⟩

theorem arithWith_still (k : RKind) (tr : (Fn → T → M idle.W T) × (Fn → T → M idle.W T)) (h1 : ∀ f x, Last stillInv (tr.1 f x))
    (h2 : ∀ f x, Last stillInv (tr.2 f x)) : AHold stillInv (arithWith idle k tr) := by
  have ev : ∀ {β : Type} (f : RMode → Option β), Last stillInv (evalIn idle f) := fun f => evalIn_last _ f
  have sw : ∀ {β : Type} (f : RMode → Option β), Last stillInv (M.modify id >>= fun _ => evalIn idle f : M idle.W β) :=
    fun f => modify_still.bind fun _ => ev f
  have swUp : ∀ {β : Type} (f : RMode → Option β), Last stillInv (dnUp idle f) :=
    fun f => Last.bind (a := dn idle f) (sw f) fun _ => modify_still.bind fun _ => Last.pure _
  have nrUp : ∀ {β : Type} (f : RMode → Option β), Last stillInv (nrUp idle f) :=
    fun f => Last.bind (a := nr idle f) (sw f) fun _ => modify_still.bind fun _ => Last.pure _
  have ng : ∀ f : RMode → Option T, Last stillInv (evalIn idle f >>= negM : M idle.W T) := fun f => (ev f).bind fun _ => Last.lift _
  cases k <;> constructor
  all_goals intros; first | exact h1 _ _ | exact h2 _ _ | exact ev _ | exact sw _ | exact swUp _ | exact nrUp _ | exact ng _ | exact Last.lift _

theorem transcOf_still (k : RKind) (lib : Lib T) : (∀ f x, Last stillInv ((transcOf idle k lib).1 f x)) ∧
    ∀ f x, Last stillInv ((transcOf idle k lib).2 f x) := by
  have ev : ∀ {β : Type} (f : RMode → Option β), Last stillInv (evalIn idle f) := fun f => evalIn_last _ f
  cases k with
  | exact => exact ⟨fun _ _ => ev _, fun _ _ => ev _⟩
  | std => exact ⟨fun _ _ => modify_still.bind fun _ => ev _, fun _ _ => modify_still.bind fun _ => ev _⟩
  | opp =>
    refine ⟨fun f x => ?_, fun _ _ => ev _⟩
    change Last _ ((transcOpp idle lib).1 f x)
    unfold transcOpp
    dsimp only
    exact Last.ite ((ev _).bind fun _ => (Last.lift _).bind fun _ => Last.lift _)
      (modify_still.bind fun _ => (ev _).bind fun _ => modify_still.bind fun _ => Last.pure _)

theorem object_still {r : RClass} {R : Rounding (M idle.W) T} (h : r.object idle lib = some R) :
    AHold stillInv R.toArith ∧ ∀ {β : Type} (a : M idle.W β), R.scope a = a := by
  unfold RClass.object at h
  cases hk : r.arithKind with
  | none => rw [hk] at h; cases h
  | some k =>
    rw [hk] at h
    cases hr : r.transcKind with
    | none =>
      rw [hr] at h
      obtain rfl := (Option.some.inj h).symm
      exact ⟨arithWith_still k _ (fun _ _ => Last.lift _) (fun _ _ => Last.lift _), fun a => idle_scope r a⟩
    | some k' =>
      rw [hr] at h
      obtain rfl := (Option.some.inj h).symm
      exact ⟨arithWith_still k _ (transcOf_still k' lib).1 (transcOf_still k' lib).2, fun a => idle_scope r a⟩

/-- Programs never change the mode of the machine, not even inside a region or when they throw: all interval types, all base
types, exact or not, all programs, `nth_root` included. -/
theorem C92_mode (t : IType) (P : Policies (M idle.W) T) (hP : t.policies idle lib nd = some P) (p : Prog T α) (s : St RMode) :
    (p.run P s).2.cw = s.cw ∧ (p.run P.unprot s).2.cw = s.cw := by
  have all : ∀ {β : Type} (p : Prog T β), p.All (fun i => Call.Protected i) true := by
    intro β p
    induction p with
    | ret | fail => trivial
    | call q k ih => exact ⟨by cases q <;> first | rfl | trivial, ih⟩
    | region body k ihb ih => exact ⟨ihb, ih⟩
  have hold : PHold stillInv stillInv P := by
    unfold IType.policies at hP
    cases hu : t.unprotect with
    | none => rw [hu] at hP; cases hP
    | some u =>
      rw [hu] at hP
      dsimp only at hP
      cases h1 : t.rounding.object idle lib with
      | none => rw [h1] at hP; cases hP
      | some rnd =>
        cases h2 : u.rounding.object idle lib with
        | none => rw [h1, h2] at hP; cases hP
        | some unp =>
          rw [h1, h2] at hP
          obtain rfl := (Option.some.inj hP).symm
          obtain ⟨a1, a2⟩ := object_still h1
          obtain ⟨b1, b2⟩ := object_still h2
          exact ⟨fun {_ a} h => by change Last _ (rnd.scope a); rw [a2]; exact h,
            fun {_ a} h => by change Last _ (unp.scope a); rw [b2]; exact h, a1, b1, fun f => evalIn_last _ f, fun f => evalIn_last _ f⟩
  exact ⟨((p.last hold (i := true) (fun _ => rfl) (all p) s trivial).1).symm,
    ((p.last hold.unprot (i := true) (fun _ => rfl) (all p) s trivial).1).symm⟩

/-- Nor do programs that call the switches themselves, `toward_zero` included, or that restore a state saved anywhere. -/
theorem C92_switches {w w' : RMode} (h : Switches idle w w') (v : idle.Saved) : w' = w ∧ idle.set v w' = w := by
  have e : w = w' := Switches.rel (c := idle) (R := fun a b : RMode => a = b) (fun _ => rfl) (fun _ _ _ => Eq.trans)
    (fun _ => rfl) (fun _ => rfl) (fun _ => rfl) (fun _ => rfl) h
  exact ⟨e.symm, e.symm⟩

example := C92_switches (w := .up) (.towardZero (.downward .refl)) ()

/-- **C92 (partial).** Over an exact base type two interval types that differ only in the rounding classes (any stacks, with
or without saving of the state) give the same outcome for every program that does not round to integers (`fmod`, `cos`,
`sin`, `tan`) and whose lower bounds come from values that can be negated in their own type.

Missing: those functions, see `C92_fmod_violated`; unsigned integers, see `C92_unsigned_violated`. -/
theorem C92_partial (E : NegExact T) (t t' : IType) (hc : t.checking = t'.checking) (P P' : Policies (M idle.W) T)
    (hP : t.policies idle lib nd = some P) (hP' : t'.policies idle lib nd = some P') (p : Prog T α)
    (hp : p.All (fun _ _ q => q.RoundsToInt = false ∧ (∀ v, q.Converts v → v.NegExact) ∧
      (q.Transcendental = true → t.HasTransc ∧ t'.HasTransc)) false) (s : St RMode) :
    p.run P s = p.run P' s := by
  have mono : ∀ (x : IType), (x = t ∨ x = t') → ∀ (i : Bool) {β : Type} (p : Prog T β),
      p.All (fun _ _ q => q.RoundsToInt = false ∧ (∀ v, q.Converts v → v.NegExact) ∧
        (q.Transcendental = true → t.HasTransc ∧ t'.HasTransc)) i →
      p.All (fun _ _ q => q.RoundsToInt = false ∧ (∀ v, q.Converts v → ¬ x.NoOpp → v.NegExact) ∧
        (q.Transcendental = true → x.HasTransc)) i := by
    intro x hx i β p
    induction p generalizing i with
    | ret | fail => intro _; trivial
    | call q k ih =>
      refine fun h => ⟨⟨h.1.1, fun v hv _ => h.1.2.1 v hv, fun ht => ?_⟩, fun y => ih y i (h.2 y)⟩
      obtain rfl | rfl := hx
      · exact (h.1.2.2 ht).1
      · exact (h.1.2.2 ht).2
    | region body k ihb ih => exact fun h => ⟨ihb true h.1, fun y => ih y i (h.2 y)⟩
  rw [idle_run (fun _ => E) hP p false (mono t (.inl rfl) false p hp),
    idle_run (fun _ => E) hP' p false (mono t' (.inr rfl) false p hp), hc]

/-- `rounded_arith_std` and `rounded_arith_exact` agree over every base type, exact or not, and for values of any type. -/
theorem C92_std_partial (t t' : IType) (hc : t.checking = t'.checking) (ht : t.NoOpp) (ht' : t'.NoOpp)
    (P P' : Policies (M idle.W) T) (hP : t.policies idle lib nd = some P) (hP' : t'.policies idle lib nd = some P') (p : Prog T α)
    (hp : p.All (fun _ _ q => q.RoundsToInt = false ∧ (q.Transcendental = true → t.HasTransc ∧ t'.HasTransc)) false)
    (s : St RMode) : p.run P s = p.run P' s := by
  have mono : ∀ (x : IType), x.NoOpp → (x = t ∨ x = t') → ∀ (i : Bool) {β : Type} (p : Prog T β),
      p.All (fun _ _ q => q.RoundsToInt = false ∧ (q.Transcendental = true → t.HasTransc ∧ t'.HasTransc)) i →
      p.All (fun _ _ q => q.RoundsToInt = false ∧ (∀ v, q.Converts v → ¬ x.NoOpp → v.NegExact) ∧
        (q.Transcendental = true → x.HasTransc)) i := by
    intro x hn hx i β p
    induction p generalizing i with
    | ret | fail => intro _; trivial
    | call q k ih =>
      refine fun h => ⟨⟨h.1.1, fun v hv n => (n hn).elim, fun hq => ?_⟩, fun y => ih y i (h.2 y)⟩
      obtain rfl | rfl := hx
      · exact (h.1.2 hq).1
      · exact (h.1.2 hq).2
    | region body k ihb ih => exact fun h => ⟨ihb true h.1, fun y => ih y i (h.2 y)⟩
  rw [idle_run (fun n => (n ht).elim) hP p false (mono t ht (.inl rfl) false p hp),
    idle_run (fun n => (n ht').elim) hP' p false (mono t' ht' (.inr rfl) false p hp), hc]

end

/-! ## Rational numbers -/

theorem negExact_rat : NegExact (Idle ℚ) where
  neg x := congrArg (fun q : ℚ => some (⟨q⟩ : Idle ℚ)) (neg_neg x.v)
  add _ x y := congrArg (fun q : ℚ => some (⟨q⟩ : Idle ℚ)) (by ring : -(-x.v - y.v) = x.v + y.v)
  sub _ x y := congrArg (fun q : ℚ => some (⟨q⟩ : Idle ℚ)) (by ring : -(y.v - x.v) = x.v - y.v)
  mul _ x y := congrArg (fun q : ℚ => some (⟨q⟩ : Idle ℚ)) (by ring : -(x.v * -y.v) = x.v * y.v)
  div r x y := by
    change (((if -y.v = 0 then none else some (x.v / -y.v)).map Idle.mk).bind fun z : Idle ℚ => some (⟨-z.v⟩ : Idle ℚ)) =
      (if y.v = 0 then none else some (x.v / y.v)).map Idle.mk
    by_cases h : y.v = 0
    · rw [if_pos h, if_pos (by rw [h, neg_zero])]
      rfl
    · rw [if_neg h, if_neg (by simpa using h)]
      exact congrArg (fun q : ℚ => some (⟨q⟩ : Idle ℚ)) (by rw [div_neg, neg_neg])

/-- A signed integer other than the least one can be negated in its own type. -/
theorem srcInt_negExact (w : ℕ) (n : Int) (h : n ≠ -2 ^ (w - 1)) : (srcInt w n : Src (Idle ℚ)).NegExact := by
  intro r
  change ((if n = -2 ^ (w - 1) then none else some (⟨((-n : Int) : ℚ)⟩ : Idle ℚ)).bind fun z => some (⟨-z.v⟩ : Idle ℚ)) =
    some ⟨(n : ℚ)⟩
  rw [if_neg h]
  exact congrArg (fun q : ℚ => some (⟨q⟩ : Idle ℚ)) (by push_cast; ring)

/-- `interval<T, policies<save_state<rounded_arith_K<T>>, checking_strict<T>>>` -/
def idleType (k : RKind) : IType := ⟨.save (.arith k .control), .strict⟩

/-- No mathematical library. -/
def noLib {T : Type} : Lib T := fun _ _ _ => none

/-- The policies of that type. -/
def idlePolicies (k : RKind) : Policies (M idle.W) (Idle ℚ) :=
  ⟨saveState idle (initOf idle k) (arithWith idle k (fun _ _ => lift (.error .ub), fun _ _ => lift (.error .ub))),
    noState idle (arithWith idle k (fun _ _ => lift (.error .ub), fun _ _ => lift (.error .ub))),
    ChkSpec.strict.eval (Idle ℚ) true, evalIn idle⟩

theorem idleType_policies (k : RKind) : (idleType k).policies idle noLib true = some (idlePolicies k) := by cases k <;> rfl

/-- A program: `I a(1); I b = a / I(3); return b - a * b;` in a region. -/
def thirds : Prog (Idle ℚ) (Itv (Idle ℚ)) :=
  .region (.call (.ctorSrc (srcInt 32 1)) fun a => .call (.ctorSrc (srcInt 32 3)) fun d => .call (.divII a d) fun b =>
    .call (.mulII a b) fun c => .call (.subII b c) .ret) .ret

theorem thirds_all (t t' : IType) : thirds.All (fun _ _ q => q.RoundsToInt = false ∧ (∀ v, q.Converts v → v.NegExact) ∧
    (q.Transcendental = true → t.HasTransc ∧ t'.HasTransc)) false := by
  refine ⟨⟨⟨rfl, ?_, nofun⟩, fun _ => ⟨⟨rfl, ?_, nofun⟩, fun _ => ⟨⟨rfl, nofun, nofun⟩, fun _ =>
    ⟨⟨rfl, nofun, nofun⟩, fun _ => ⟨⟨rfl, nofun, nofun⟩, fun _ => trivial⟩⟩⟩⟩⟩, fun _ => trivial⟩
  · rintro v rfl; exact srcInt_negExact 32 1 (by norm_num)
  · rintro v rfl; exact srcInt_negExact 32 3 (by norm_num)

example (k k' : RKind) (s : St RMode) : thirds.run (idlePolicies k) s = thirds.run (idlePolicies k') s :=
  C92_partial negExact_rat (idleType k) (idleType k') rfl _ _ (idleType_policies k) (idleType_policies k') thirds
    (thirds_all _ _) s

theorem idleType_noOpp {k : RKind} (h : k ≠ .opp) : (idleType k).NoOpp := by
  have e : RClass.NoOpp (.save (.arith k .control)) := ⟨fun e => h (Option.some.inj e), nofun⟩
  refine ⟨e, fun u hu => ?_⟩
  obtain rfl := Option.some.inj hu
  exact ⟨fun e => h (Option.some.inj e), nofun⟩

example (k : RKind) (s : St RMode) : (thirds.run (idlePolicies k) s).2.cw = s.cw :=
  (C92_mode (idleType k) _ (idleType_policies k) thirds s).1

/-- Division of double precision numbers with this control: no direction is set by `_std`, so that it computes what `_exact`
computes. -/
example (x y : Itv (Idle (Fl Fmt.double))) (s : St RMode) (P P' : Policies (M idle.W) (Idle (Fl Fmt.double)))
    (h : (idleType .std).policies idle noLib true = some P) (h' : (idleType .exact).policies idle noLib true = some P') :
    Prog.run P (.call (.divII x y) .ret) s = Prog.run P' (.call (.divII x y) .ret) s :=
  C92_std_partial (idleType .std) (idleType .exact) rfl (idleType_noOpp nofun) (idleType_noOpp nofun) P P' h h'
    (.call (.divII x y) .ret)
    ⟨⟨rfl, nofun⟩, fun _ => trivial⟩ s

/-! ## What does not hold -/

/-- `int_down` and `int_up` of the class `_std` return their argument, an integer or not. -/
theorem C92_int_violated {T : Type} [Num T] (tr) (x : Idle T) (s : St RMode) :
    (arithWith idle .std tr).intDown x s = (.ok x, s) ∧ (arithWith idle .std tr).intUp x s = (.ok x, s) := ⟨rfl, rfl⟩

/-- `[n, n]` -/
def ratI (n : Int) : Itv (Idle ℚ) := ⟨⟨n⟩, ⟨n⟩⟩

theorem sched_cases (f : Nat → Bool) : f = fun n => Nat.casesOn n (f 0) fun n => Nat.casesOn n (f 1) fun n => f (n + 2) := by
  funext n
  cases n with
  | zero => rfl
  | succ n => cases n <;> rfl

/-- `fmod` of 5 and 2 is 1 with `rounded_arith_exact` but 0 with `rounded_arith_std` and `rounded_arith_opp`: the rounded
quotient 5/2 is not an integer. -/
theorem C92_fmod_violated (s : St RMode) :
    ((Call.fmodII (ratI 5) (ratI 2)).run (idlePolicies .exact) s).1 = .ok (ratI 1) ∧
    ((Call.fmodII (ratI 5) (ratI 2)).run (idlePolicies .std) s).1 = .ok (ratI 0) ∧
    ((Call.fmodII (ratI 5) (ratI 2)).run (idlePolicies .opp) s).1 = .ok (ratI 0) := by
  obtain ⟨w, f⟩ := s
  rw [sched_cases f]
  generalize f 0 = a
  generalize f 1 = b
  generalize (fun n => f (n + 2)) = g
  cases a <;> cases b <;> with_unfolding_all exact ⟨rfl, rfl, rfl⟩

/-- The lower bound made from an unsigned 1 by `rounded_arith_opp` is `-(2^32 - 1)`; by the others it is 1. -/
theorem C92_unsigned_violated (s : St RMode) :
    (Call.ctorSrc (srcUnsigned 32 1)).run (idlePolicies .opp) s = (.ok ⟨⟨-4294967295⟩, ⟨1⟩⟩, s) ∧
    (Call.ctorSrc (srcUnsigned 32 1)).run (idlePolicies .std) s = (.ok (ratI 1), s) ∧
    (Call.ctorSrc (srcUnsigned 32 1)).run (idlePolicies .exact) s = (.ok (ratI 1), s) := ⟨rfl, rfl, rfl⟩

end BI
