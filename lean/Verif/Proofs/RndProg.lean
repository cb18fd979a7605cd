import Verif.Spec.RndProg
import Verif.Proofs.ClientSim
import Verif.Proofs.Conv
import Verif.Proofs.Elem
/-! # Programs with a rounding object: simulation by the mode-free arithmetic, and what that arithmetic promises -/

set_option linter.unusedSectionVars false

namespace BI
namespace RndProg
variable {T : Type} [Num T] {V : Env T} {J : Inv V.ctl.W} {D U : EReal → EReal → Prop}

/-- What a program needs from the rounding object it uses. -/
structure Obj (V : Env T) (J : Inv V.ctl.W) (A : Arith (M V.ctl.W) T) : Prop where
  sim : ASim J A V.B
  convDown : ∀ v, (V.kind = .exact → ∀ r r', v.conv r = v.conv r') → Sim J (A.convDown v) (V.B.convDown v)
  convUp : ∀ v, (V.kind = .exact → ∀ r r', v.conv r = v.conv r') → Sim J (A.convUp v) (V.B.convUp v)

theorem Obj.rnd {I : Inv V.ctl.W} {P : Policies (M V.ctl.W) T} (h : Lvl V I J P) : Obj V J P.rnd.toArith :=
  ⟨h.sim.rnd, h.convDown, h.convUp⟩
theorem Obj.unp {I : Inv V.ctl.W} {P : Policies (M V.ctl.W) T} (h : Lvl V I J P) : Obj V J P.unp.toArith :=
  ⟨h.sim.unp, h.convDownU, h.convUpU⟩

theorem op_sim {A : Arith (M V.ctl.W) T} (h : Obj V J A) (o : ROp T)
    (ho : ∀ up v, o = .conv up v → V.kind = .exact → ∀ r r', v.conv r = v.conv r') : Sim J (o.run A) (o.run V.B) := by
  cases o with
  | conv up v => cases up; exacts [h.convDown v (ho _ _ rfl), h.convUp v (ho _ _ rfl)]
  | add up x y => cases up; exacts [h.sim.s_addDown x y, h.sim.s_addUp x y]
  | sub up x y => cases up; exacts [h.sim.s_subDown x y, h.sim.s_subUp x y]
  | mul up x y => cases up; exacts [h.sim.s_mulDown x y, h.sim.s_mulUp x y]
  | div up x y => cases up; exacts [h.sim.s_divDown x y, h.sim.s_divUp x y]
  | sqrt up x => cases up; exacts [h.sim.s_sqrtDown x, h.sim.s_sqrtUp x]
  | int up x => cases up; exacts [h.sim.s_intDown x, h.sim.s_intUp x]
  | fn up f x => cases up; exacts [h.sim.s_fnDown f x, h.sim.s_fnUp f x]
  | median x y => exact h.sim.s_median x y

/-- What restores the control word can be used inside a rounding object. -/
theorem inside {α : Type} (hJ : ∀ w, J.Pre w → V.laws.valid w) {a : M V.ctl.W α} {r : Res α} (h : Sim (outer V.laws) a r) :
    Sim J a r := fun s hs => by
  obtain ⟨h1, h2, -⟩ := h s (hJ _ hs)
  have h2 : s.cw = (a s).2.cw := h2
  exact ⟨h1, by rw [← h2]; exact J.refl _ hs, fun _ _ => by rw [← h2]; exact hs⟩

variable [Val T]

theorem run_sim (h : Lvl V (outer V.laws) J V.P) (hJ : ∀ w, J.Pre w → V.laws.valid w) {α : Type} (p : RProg T α) :
    ∀ {A : Arith (M V.ctl.W) T}, Obj V J A → p.Ok V D U → Sim J (p.run V.P A) (p.run V.pp V.B) := by
  induction p with
  | ret a => intros; unfold RProg.run; exact Sim.pure _
  | fail e => intros; unfold RProg.run; exact Sim.lift _
  | op o k ih =>
    intro A hA hp
    unfold RProg.run
    refine (op_sim hA o ?_).bind fun b => ih b hA (hp.2 b)
    rintro up v rfl
    exact hp.1
  | call u c k ih =>
    intro A hA hp
    unfold RProg.run
    refine Sim.bind ?_ fun b => ih b hA (hp.2 b)
    have hu : V.ModeFree true c := by
      have := hp.1
      cases c <;> first | exact this | exact absurd this.1 Bool.noConfusion
    cases u
    · exact inside hJ (c.run_sim h (fun h => by cases h) hp.1)
    · exact c.run_sim h.unprot (fun _ => rfl) hu
  | block u body k ih ih' =>
    intro A hA hp
    unfold RProg.run
    refine Sim.bind ?_ fun b => ih' b hA (hp.2 b)
    cases u
    · exact inside hJ (h.sim.scope (ih (Obj.rnd h) hp.1))
    · exact h.sim.scopeU (ih (Obj.unp h) hp.1)

end RndProg

section
variable {T : Type} [Num T] [Val T] [NumLaws T] {V : Env T} {D U : EReal → EReal → Prop}

theorem Env.IntOk.up (h : V.IntOk) (hc : V.kind = .exact → ∀ (a : T) (q : ℝ), val a = some (q : EReal) →
      ∃ c, Num.ceil a = some c ∧ val c = some ((⌈q⌉ : ℝ) : EReal)) {t : T} {q : ℝ} (ht : val t = some (q : EReal)) :
    Post True (V.B.intUp t) fun c => val c = some ((⌈q⌉ : ℝ) : EReal) := by
  unfold Env.B
  cases hk : V.kind with
  | exact =>
    obtain ⟨c, h1, h2⟩ := hc hk t q ht
    change Post True (ofOpt (Num.ceil t)) _
    rw [h1]; exact h2
  | std =>
    rcases h with ⟨_, hB⟩ | ⟨hk', _⟩
    · obtain ⟨_, c, h1, h2⟩ := hB t q ht
      change Post True (ofOpt (Num.rint .up t)) _
      rw [h1]; exact h2
    · rw [hk] at hk'; cases hk'
  | opp =>
    rcases h with ⟨_, hB⟩ | ⟨hk', _⟩
    · obtain ⟨_, c, h1, h2⟩ := hB t q ht
      change Post True (ofOpt (Num.rint .up t)) _
      rw [h1]; exact h2
    · rw [hk] at hk'; cases hk'

namespace RndProg

theorem of_post {r : Res T} {Q : T → Prop} (h : Post True r Q) : ∃ c, r = .ok c ∧ Q c := by
  cases r with
  | ok c => exact ⟨c, rfl, h⟩
  | error e => exact absurd trivial h.2

theorem side {r : Res T} {R : EReal → Prop} (h : Post True r fun c => ∃ z, val c = some z ∧ R z) :
    ∃ c z, r = .ok c ∧ val c = some z ∧ R z := by
  obtain ⟨c, h1, z, h2, h3⟩ := of_post h
  exact ⟨c, z, h1, h2, h3⟩

theorem op_meets (hDU : DU T D U) (hV : V.Ok D U) (o : ROp T) (ho : o.Supported V D U) : o.Meets V D U (o.run V.B) := by
  intro e he
  cases o with
  | conv up v => cases up; exacts [side (Src.Denotes.down hDU hV.neg he), side (Src.Denotes.up hDU he)]
  | add up x y =>
    obtain ⟨a, b, ha, hb, hok, rfl⟩ := he
    cases up; exacts [side ((hV.dir hDU).addDown _ _ _ _ ha hb hok), side ((hV.dir hDU).addUp _ _ _ _ ha hb hok)]
  | sub up x y =>
    obtain ⟨a, b, ha, hb, hok, rfl⟩ := he
    cases up; exacts [side ((hV.dir hDU).subDown _ _ _ _ ha hb hok), side ((hV.dir hDU).subUp _ _ _ _ ha hb hok)]
  | mul up x y =>
    obtain ⟨a, b, ha, hb, hok, rfl⟩ := he
    cases up; exacts [side ((hV.dir hDU).mulDown _ _ _ _ ha hb hok), side ((hV.dir hDU).mulUp _ _ _ _ ha hb hok)]
  | div up x y =>
    obtain ⟨a, b, ha, hb, hok, rfl⟩ := he
    cases up; exacts [side ((hV.div hDU).divDown _ _ _ _ ha hb hok), side ((hV.div hDU).divUp _ _ _ _ ha hb hok)]
  | sqrt up x =>
    obtain ⟨a, ha, h0, rfl⟩ := he
    have h : V.SqrtOk D U := ho
    cases up; exacts [side ((h.laws hDU).sqrtDown _ _ ha h0), side ((h.laws hDU).sqrtUp _ _ ha h0)]
  | int up x =>
    obtain ⟨q, hq, rfl⟩ := he
    cases up
    · obtain ⟨c, h1, h2⟩ := of_post (Env.IntOk.down hV ho.1 hq); exact ⟨c, _, h1, h2, rfl⟩
    · obtain ⟨c, h1, h2⟩ := of_post (Env.IntOk.up ho.1 ho.2 hq); exact ⟨c, _, h1, h2, rfl⟩
  | fn up f x =>
    obtain ⟨a, ha, hf⟩ := he
    have h : V.FnOk D U f := ho
    cases up; exacts [side (h.down hDU ha hf), side (h.up hDU ha hf)]
  | median x y => exact absurd he id

theorem expects_bind {α β : Type} {V : Env T} {r : Res β} {k : β → RProg T α} {f : β → Res α}
    (h : ∀ b, (k b).Expects V D U (f b)) :
    (∀ b, r = .ok b → (k b).Expects V D U (r >>= f)) ∧ ∀ e, r = .error e → (r >>= f) = .error e := by
  constructor
  · rintro b rfl; exact h b
  · rintro e rfl; rfl

theorem run_expects (hDU : DU T D U) (hV : V.Ok D U) {α : Type} (p : RProg T α) :
    p.Ok V D U → p.Expects V D U (p.run V.pp V.B) := by
  obtain ⟨J, h, hJ⟩ := V.lvl' hV.kindOk
  induction p with
  | ret a => intro _; exact rfl
  | fail e => intro _; exact rfl
  | op o k ih =>
    intro hp
    exact ⟨o.run V.B, op_meets hDU hV o hp.1, expects_bind fun b => ih b (hp.2 b)⟩
  | call u c k ih =>
    intro hp
    refine ⟨c.run V.pp, fun s hs => (c.run_sim h (fun h => by cases h) hp.1 s hs).1, ?_⟩
    have e : (RProg.call u c k).run V.pp V.B = c.run V.pp >>= fun b => (k b).run V.pp V.B := by
      cases u <;> rfl
    rw [e]
    exact expects_bind fun b => ih b (hp.2 b)
  | block u body k ih ih' =>
    intro hp
    refine ⟨body.run V.pp V.B, ih hp.1, ?_⟩
    have e : (RProg.block u body k).run V.pp V.B = body.run V.pp V.B >>= fun b => (k b).run V.pp V.B := by
      cases u <;> rfl
    rw [e]
    exact expects_bind fun b => ih' b (hp.2 b)

end RndProg
end
end BI
