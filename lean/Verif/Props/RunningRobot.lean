import Verif.Props.Running
import Verif.Props.RobotJacobian

/-!
# Control loops on simulated robots keep running

Property C117, with mjx as simulator.
-/

namespace Mjinx.Props
open Spec
variable {env : Env ℝ} {G : Geometry} {m : MjModel ℝ}

/-- mjx keeps hinge and slide coordinates. -/
theorem sim_keeps (hs : Simulates env G m) (hw : JointsWF m) : KeepsScalars env m := by
  intro q _
  obtain ⟨e, p, J, hup⟩ := update_fields hs q
  rw [hup]
  obtain ⟨h1, h2⟩ := consecutive_qblock (0 : ℝ) (fun (p : JntType × Nat) => match p.1 with
    | .free => vec3List (vec3At q.get p.2) ++ quatList (normalizeQuat (quatAt q.get (p.2 + 3)))
    | .ball => quatList (normalizeQuat (quatAt q.get p.2))
    | .hinge => [q.get p.2]
    | .slide => [q.get p.2]) (fun t a => by cases t <;> rfl) hw.addr
  refine ⟨by rw [← h1, Nat.zero_add]; rfl, fun k hk => ?_⟩
  obtain ⟨hk1, hk2⟩ := List.mem_filter.1 hk
  have hlt := List.mem_range.1 hk1
  have hg : m.jntType.getD k .free = m.jntType.getD k .hinge := by
    simp [List.getD_eq_getElem?_getD, List.getElem?_eq_getElem hlt]
  rw [hg] at hk2
  obtain ⟨-, -, h3⟩ := h2 k hlt
  cases ht : m.jntType.getD k .hinge with
  | free => rw [ht] at hk2; cases hk2
  | ball => rw [ht] at hk2; cases hk2
  | hinge => rw [ht] at h3; exact h3 0 (by decide)
  | slide => rw [ht] at h3; exact h3 0 (by decide)

/-- The data of mjx has one entry per body, geom, site and degree of freedom. -/
theorem sim_fits (hs : Simulates env G m) (hw : RobotWF G m) (hm : ModelFits m)
    (hjac : ∀ f q, (env.jacrev f q).rows = (f q).len ∧ (env.jacrev f q).cols = q.len) (q : Vec ℝ) (hq : q.len = m.nq) :
    Sized env m (update env m q) ∧ DataFits m (update env m q) := by
  have hk := (sim_keeps hs hw.addr q hq).1
  refine ⟨⟨hjac, hk, cdof_length hs hw q, hw.tree.dofs⟩, ?_⟩
  obtain ⟨e, p, J, hup⟩ := update_fields hs q
  rw [hup]
  refine ⟨⟨by simp [simComPos, simKinematics], by simp [simComPos, simKinematics], by simp [simComPos, simKinematics]⟩, by simp [simComPos, simKinematics],
    by simp [simComPos, simKinematics], by simp [simComPos, simKinematics], ?_⟩
  exact subtreeComs_length hm (by simp [simKinematics])

theorem sim_envFits (hs : Simulates env G m) (hcon : ∀ d t1 t2, (env.collide m d).known t1 t2 = true → 1 ≤ (env.collide m d).ncon t1 t2) :
    EnvFits env m := by
  refine ⟨fun q _ => ?_, hcon⟩
  rw [hs.kinematics]
  exact ⟨⟨by simp [simKinematics], by simp [simKinematics], by simp [simKinematics]⟩, by simp [simKinematics]⟩

/-- **C117** (simulated robots): on every robot, with the kinematics of mjx, nothing has to be assumed about sizes: a loop keeps running. -/
theorem C117_robot {I : Type} (hs : Simulates env G m) (hw : RobotWF G m) (hm : ModelFits m)
    (hjac : ∀ f q, (env.jacrev f q).rows = (f q).len ∧ (env.jacrev f q).cols = q.len)
    (hcon : ∀ d t1 t2, (env.collide m d).known t1 t2 = true → 1 ≤ (env.collide m d).ncon t1 t2) (osqp : QPSolver ℝ I) {p : Nat} (dt : ℝ)
    {setup : List (Op ℝ)} {acts : List (Act ℝ)} (hclean : CleanProgram World.init (setup ++ callsOf p acts))
    (hready : Ready env m p (run World.init setup)) (hgentle : ∀ a ∈ acts, Gentle p (run World.init setup) a)
    {q0 : Vec ℝ} (hq0 : q0.len = m.nq) (s0 : LocalIKData ℝ) :
    AtEveryTick env osqp m p dt (RunsOrSingular env osqp m p) ⟨run World.init setup, q0, s0⟩ acts ∧
    (OnlyJointBarriers p (run World.init setup) → AtEveryTick env osqp m p dt (Works env osqp m p) ⟨run World.init setup, q0, s0⟩ acts) :=
  ⟨C117_runs hm (sim_envFits hs hcon) (sim_fits hs hw hm hjac) osqp dt hclean hready hgentle hq0 s0,
   fun h => C117_always hm (sim_envFits hs hcon) (sim_keeps hs hw.addr) (sim_fits hs hw hm hjac) osqp dt hclean hready h hgentle hq0 s0⟩

end Mjinx.Props
