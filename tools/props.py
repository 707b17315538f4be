#!/usr/bin/env python3
"""Writes /verif/properties.jsonl (one property per line)."""
import json, os
P = []
def p(title, statement, quantifier, why, anchors):
    P.append(dict(id=f"C{len(P)+1:02d}", title=title, statement=statement, quantifier=quantifier,
                  why_tests_cant=why, anchors=anchors))
B="mjinx/components/_base.py"; TB="mjinx/components/tasks/_base.py"; JT="mjinx/components/tasks/_joint_task.py"
CT="mjinx/components/tasks/_com_task.py"; OT="mjinx/components/tasks/_obj_task.py"; FT="mjinx/components/tasks/_obj_frame_task.py"
PT="mjinx/components/tasks/_obj_position_task.py"; JB="mjinx/components/barriers/_joint_barrier.py"
OB="mjinx/components/barriers/_obj_barrier.py"; PB="mjinx/components/barriers/_obj_position_barrier.py"
SC="mjinx/components/barriers/_self_collision_barrier.py"; CB="mjinx/components/constraints/_base.py"
EQ="mjinx/components/constraints/_equality_constraint.py"; PR="mjinx/problem.py"; SB="mjinx/solvers/_base.py"
LI="mjinx/solvers/_local_ik.py"; GI="mjinx/solvers/_global_ik.py"; CO="mjinx/configuration/_collision.py"
LIE="mjinx/configuration/_lie.py"; MO="mjinx/configuration/_model.py"; VI="mjinx/visualize.py"; TY="mjinx/typing.py"
def a(f,*s): return {"file":f,"symbols":list(s)}

# ---- component / problem state
p("Compiled components are never stale",
  "Whatever the user did before, reading `jax_component` returns exactly the component that would be built from the settings the component holds at that moment; caching is invisible.",
  "every component kind and every finite sequence of constructor calls, setters, attribute assignments, model updates (successful or failing) and compilations",
  "The cache flag is flipped by every attribute write and every getter that fills defaults; only an invariant over all histories excludes a path that changes a setting without invalidating the cache.",
  [a(B,"Component.__setattr__","Component.jax_component","Component._build_component")])
p("Compiling twice gives the same result",
  "Calling `Problem.compile()` twice with no change in between returns equal data, and compiling changes no setting of any component that a user can read (gain, cost, targets, limits, dim, mask, model).",
  "every reachable state of components and problems",
  "Compilation writes to the component (lazy masks, cache); absence of observable effects is a statement about every reachable state.",
  [a(PR,"Problem.compile"),a(B,"Component.jax_component","Component.mask_idxs")])
p("A problem is a name-to-component map in insertion order",
  "After any history of `add_component`/`remove_component`, lookups behave as on a finite map: the last successful add of a name is what `component(name)` returns, removed or never-added names raise ValueError, names are pairwise distinct, and compile lists exactly the present components in insertion order.",
  "every finite sequence of add and remove calls on a problem, interleaved with other operations",
  "Requires agreement with an abstract map after unboundedly many operations.",
  [a(PR,"Problem.add_component","Problem.remove_component","Problem.component","Problem.compile")])
p("A refused add leaves the problem as it was",
  "If `add_component` raises (duplicate name, or the component rejects the model), the set of components in the problem and its velocity limits are unchanged; on a duplicate name the component itself is unchanged too.",
  "every state, component and problem",
  "Exception safety must hold at every raising point of every component kind.",
  [a(PR,"Problem.add_component")])
p("Typed lookups return the right kind",
  "`task(name)` (`barrier(name)`) returns the component stored under that name exactly when it is a task (barrier) and raises ValueError in every other case; constraints are reachable only through `component(name)`.",
  "every reachable problem and every name",
  "Ranges over all problem contents.",
  [a(PR,"Problem.task","Problem.barrier","Problem.component")])
p("Velocity limits always have one entry per degree of freedom",
  "At every moment after construction, `v_min` and `v_max` are vectors of length nv; a scalar limit is copied to every entry, a vector of length nv is stored as given, and anything else raises ValueError and leaves the previous limits in place.",
  "every model, every array passed, every history of updates",
  "Invariant over all update histories and all array shapes.",
  [a(PR,"Problem.update_v_min","Problem.update_v_max")])
p("Compiled components are bound to the problem's model",
  "Every component in the data returned by `compile()` carries the model the problem was created with.",
  "every history of operations on any number of components and problems",
  "Components are shared by reference; only a statement over all histories shows when another problem's add can rebind them.",
  [a(PR,"Problem.add_component","Problem.compile"),a(B,"Component.update_model")])
p("A rejected setter call changes nothing",
  "If an update of gain, cost, target position/CoM/joints/frame, joint limits or position limits raises, the component is exactly as before the call.",
  "every component state and every argument",
  "Covers every argument shape and every component state.",
  [a(B,"Component.update_gain"),a(TB,"Task.update_cost"),a(JT,"JointTask.update_target_q"),a(CT,"ComTask.update_target_com"),a(PT,"PositionTask.update_target_pos"),a(FT,"FrameTask.update_target_frame"),a(JB,"JointBarrier.update_q_min","JointBarrier.update_q_max"),a(PB,"PositionBarrier.update_p_min","PositionBarrier.update_p_max")])
p("A rejected model leaves the component as it was",
  "If a component rejects a model (`update_model` raises), the component's observable state is the same as before the call.",
  "every component kind, every state and every model",
  "Atomicity of a multi-step update at every raising point; (the code violates it).",
  [a(JT,"JointTask.update_model"),a(OT,"ObjTask.update_model"),a(OB,"ObjBarrier.update_model"),a(EQ,"ModelEqualityConstraint.update_model"),a(JB,"JointBarrier.update_model")])
p("Gain expansion",
  "`vector_gain` is a vector of length dim: a scalar gain is repeated, a vector gain of length dim is used as is; a gain vector of another length raises ValueError, and so does an unset dimension.",
  "every gain array and every component dimension",
  "Ranges over all shapes and values.",
  [a(B,"Component.vector_gain","Component.update_gain")])
p("Cost expansion",
  "`matrix_cost` (and `soft_constraint_cost`) is a dim x dim matrix: scalar -> scaled identity, vector of length dim -> diagonal, dim x dim matrix -> itself, every other shape raises ValueError; a constraint without explicit cost uses 100 times the identity.",
  "every cost array and every component dimension",
  "Ranges over all shapes and values.",
  [a(TB,"Task.matrix_cost","Task.update_cost"),a(CB,"Constraint.soft_constraint_cost")])
p("Mask and mask indices agree",
  "`mask_idxs` lists, in increasing order and without repetition, exactly the positions at which `mask` is nonzero; without an explicit mask it lists every axis of the task.",
  "every mask and every history of reads and writes on the component",
  "Indices are computed once and cached separately from the mask; must hold for every length and every history.",
  [a(B,"Component.mask","Component.mask_idxs","Component._get_default_mask")])
p("Joint masks select matching position and velocity coordinates",
  "For any mix of free, ball, hinge and slide joints and any mask over the scalar joints, the k-th selected configuration coordinate and the k-th selected velocity coordinate belong to the same joint, namely the k-th selected scalar joint in model order.",
  "every joint layout and every mask",
  "Index arithmetic over arbitrary sequences of joints with different position/velocity widths.",
  [a(JT,"JointTask.update_model"),a(JB,"JointBarrier.update_model")])
p("Joint task error and Jacobian agree along motion",
  "For every model, the error of a joint task after integrating any velocity v for time dt equals the error before plus dt times (Jacobian times v), exactly.",
  "every joint layout, mask, target, configuration, velocity and time step",
  "Quantifies over all models and real vectors.",
  [a(JT,"JaxJointTask.__call__","JaxJointTask.compute_jacobian"),a(MO,"integrate")])
p("Compiled shapes are consistent",
  "Whenever a component compiles, its gain vector has length dim and its cost matrix is dim x dim; so the solver's products are well-shaped for tasks whose error has dim entries.",
  "every component kind and every reachable state",
  "Ranges over all states and array shapes.",
  [a(B,"Component._build_component"),a(TB,"JaxTask"),a(CB,"JaxConstraint")])
p("Joint barrier is nonnegative exactly inside the joint limits",
  "The joint barrier value is componentwise nonnegative iff every selected joint position lies between its q_min and q_max; with no explicit limits the limits are the model's joint ranges of the same joints.",
  "every model, mask, limits and configuration",
  "Ranges over all models and configurations.",
  [a(JB,"JaxJointBarrier.__call__","JointBarrier.update_model")])
p("Default joint limits work with a mask",
  "A joint barrier built with a mask and no explicit limits can be added to a problem and takes the limits of the selected joints from the model.",
  "every model and every mask of the right length",
  "Claim about every mask; (the code violates it for every mask that drops a joint).",
  [a(JB,"JointBarrier.update_model","JointBarrier.update_q_min")])
p("Position barrier is nonnegative exactly inside the active limits",
  "For limit type min/max/both the barrier value is componentwise nonnegative iff the object's position on the selected axes satisfies p >= p_min / p <= p_max / both; an assignment to a bound that the limit type excludes is ignored.",
  "every object position, mask, limit type, limits and update history",
  "Ranges over all values and update histories.",
  [a(PB,"JaxPositionBarrier.__call__","PositionBarrier.update_p_min","PositionBarrier.update_p_max"),a(TY,"PositionLimitType")])
p("Named objects resolve or are refused",
  "A component attached to a named object compiles only with the id of an object of that type and name in its model; if the model has no such object, adding it raises and it can never be compiled with a wrong id afterwards.",
  "every model, name, object type and history",
  "Includes histories where a failed add is followed by compilation elsewhere.",
  [a(OT,"ObjTask.update_model","ObjTask.obj_id"),a(OB,"ObjBarrier.update_model","ObjBarrier.obj_id")])
p("Targets always fit the task",
  "The last axis of the stored target of a position, CoM or joint task always equals the task dimension once the dimension is known: constructor defaults, accepted updates and accepted model changes keep it, mismatching updates raise. The target of a frame task always has the seven entries of a pose: arrays of any other length are refused.",
  "every history of target updates and model changes that do not raise",
  "Invariant over histories.",
  [a(PT,"PositionTask.update_target_pos"),a(CT,"ComTask.update_target_com"),a(JT,"JointTask.update_target_q","JointTask.update_model")])
# ---- local IK
p("Local IK respects the velocity limits",
  "Every velocity that satisfies the constraints LocalIK hands to its QP solver satisfies v_min <= v <= v_max, and every velocity within those limits satisfies the limit rows.",
  "every problem, limits and velocity",
  "Universally quantified over real vectors; (the code is wrong for asymmetric limits).",
  [a(LI,"LocalIKSolver.__compute_qp_matrices")])
p("Barrier rows encode the barrier inequality",
  "A velocity satisfies the QP rows contributed by a barrier iff J v >= -gain * gain_fn(h(q)) componentwise.",
  "every barrier, state and velocity",
  "All real vectors, all dimensions.",
  [a(LI,"LocalIKSolver.__compute_qp_matrices (process_barrier)")])
p("Hard constraints encode the constraint equation",
  "A velocity satisfies the QP equality rows iff for every hard constraint J v = -gain * gain_fn(f(q)).",
  "every set of constraints, state and velocity",
  "All real vectors, all dimensions.",
  [a(LI,"LocalIKSolver.__compute_qp_matrices (process_hard_constraint)")])
p("The QP is convex",
  "The QP cost matrix is symmetric and positive semidefinite whenever damping and safe-displacement gains are nonnegative, for every choice of cost matrices.",
  "every problem, state and component set",
  "All real matrices of all sizes.",
  [a(LI,"LocalIKSolver.__compute_qp_matrices")])
p("The QP objective is the weighted task residual",
  "Up to a constant, the objective equals the sum over tasks of 1/2|W(Jv + gain*gain_fn(e))|^2 + 1/2 lm|W gain gain_fn(e)|^2 |v|^2, plus the soft-constraint residuals, plus the barriers' displacement penalty.",
  "every problem, state and velocity",
  "Identity over all real matrices and vectors of all sizes.",
  [a(LI,"LocalIKSolver.__compute_qp_matrices (process_task)")])
p("The documented cost weighting",
  "As documented, a task with cost matrix W contributes J^T W J to the QP matrix.",
  "every task and state",
  "Universal identity; (the code squares W).",
  [a(LI,"LocalIKSolver","LocalIKSolver.__compute_qp_matrices (process_task)"),a(TB,"Task")])
p("Component order does not matter",
  "Permuting the components of a problem changes neither the QP cost nor the set of feasible velocities.",
  "every component list and every permutation of it",
  "All permutations of lists of any length.",
  [a(LI,"LocalIKSolver.__compute_qp_matrices")])
p("The solution does not depend on solver history",
  "Local IK's velocity depends only on the problem and the robot state, not on the solver data carried over from earlier steps.",
  "every problem, state and pair of solver data",
  "Any history of earlier calls.",
  [a(LI,"LocalIKSolver.solve_from_data")])
p("Joint limits are forward invariant",
  "If the robot starts inside the joint limits and every step applies a velocity satisfying the joint barrier rows with gain*dt <= 1 and identity gain function, all masked joints stay inside their limits forever.",
  "every model, limits, initial configuration and infinite sequence of feasible velocities",
  "Unbounded number of control steps.",
  [a(LI,"LocalIKSolver.__compute_qp_matrices"),a(JB,"JaxJointBarrier"),a(MO,"integrate")])
p("Joint tasks converge geometrically",
  "If each step's velocity zeroes the joint task residual, the error after n steps is (1 - gain*dt)^n times the initial error.",
  "every model, target, initial configuration and number of steps",
  "Unbounded number of steps.",
  [a(LI,"LocalIKSolver.__compute_qp_matrices (process_task)"),a(JT,"JaxJointTask"),a(MO,"integrate")])
p("The QP is finite",
  "For finite inputs the QP matrices are finite.",
  "every problem and state",
  "Division by the Jacobian norm; needs every state; (violated when a barrier Jacobian vanishes).",
  [a(LI,"LocalIKSolver.__compute_qp_matrices (process_barrier)")])
p("Inactive constraints have no effect",
  "A constraint with active = False contributes nothing to the local IK problem.",
  "every problem with an inactive constraint",
  "Claim over all problems; (the code ignores the flag).",
  [a(CB,"Constraint","JaxConstraint"),a(LI,"LocalIKSolver.__compute_qp_matrices")])
p("Soft constraints act as tasks",
  "A soft constraint contributes to the QP exactly what a task with the same error, Jacobian and gain, cost = soft_constraint_cost and no damping contributes.",
  "every constraint and state",
  "Universal identity.",
  [a(LI,"LocalIKSolver.__compute_qp_matrices (process_soft_constraint)")])
p("solve is solve_from_data after update, and checks its input",
  "`solve(q)` raises ValueError iff q does not have shape (nq,) and otherwise equals `solve_from_data` on the updated robot data.",
  "every q, problem and solver state",
  "All inputs.",
  [a(SB,"Solver.solve"),a(GI,"GlobalIKSolver.solve")])
p("QP shapes",
  "The QP has nv variables and 2 nv + (sum of barrier dims) inequality rows and (sum of hard constraint dims) equality rows.",
  "every problem with components whose values match their dims",
  "All component lists.",
  [a(LI,"LocalIKSolver.__compute_qp_matrices")])
p("Standing still at the goal",
  "If every task error and constraint residual is zero, barriers are satisfied and zero velocity lies in the limits, then zero velocity is feasible and optimal for local IK (gain functions mapping 0 to 0 and nonnegatives to nonnegatives).",
  "every problem and state",
  "Optimality against all real velocities.",
  [a(LI,"LocalIKSolver.__compute_qp_matrices")])
# ---- global IK
p("Global IK loss formula",
  "The global IK loss is the sum over tasks of sum_i gain_i e_i^2 minus the sum over barriers of sum_j gain_j log(clip(h_j,1e-9,1)).",
  "every problem and state",
  "All real inputs.",
  [a(GI,"GlobalIKSolver.loss_fn","GlobalIKSolver.log_barrier")])
p("Global IK uses the task cost",
  "As documented, the task cost weights the error in the global IK loss.",
  "every task",
  "Universal; (the code ignores the cost).",
  [a(GI,"GlobalIKSolver.loss_fn"),a(TB,"Task")])
p("Global IK barrier penalty repels from violations",
  "A more violated barrier yields a larger penalty.",
  "every barrier value",
  "All reals; (the code clips, so the penalty is flat once violated; monotone only).",
  [a(GI,"GlobalIKSolver.log_barrier")])
p("Global IK refuses constraints",
  "A problem containing any constraint makes the global IK loss raise NotImplementedError; without constraints it does not.",
  "every component set",
  "All component sets.",
  [a(GI,"GlobalIKSolver.loss_fn")])
p("Global IK velocity reaches the optimised configuration",
  "The returned velocity times dt equals the returned configuration minus the starting one and has length nq; velocity limits are not consulted.",
  "every state and dt != 0",
  "All reals.",
  [a(GI,"GlobalIKSolver.solve_from_data","GlobalIKSolver.solve")])
# ---- configuration
p("Skew matrix is the cross product",
  "`skew_symmetric(v) @ w` is v x w and the matrix is antisymmetric.",
  "all vectors v, w","All reals.",
  [a(LIE,"skew_symmetric")])
p("Attitude Jacobian maps body rates to quaternion rates",
  "Half of `attitude_jacobian(q)` times a body angular velocity is the time derivative of the quaternion under that angular velocity (as documented), its columns are orthonormal and orthogonal to q for a unit quaternion.",
  "every unit quaternion and angular velocity",
  "All reals.",
  [a(LIE,"attitude_jacobian")])
p("jac_dq2v is the derivative of integration",
  "`jac_dq2v(q) @ v` is the derivative at dt=0 of `integrate(q, v, dt)`.",
  "every joint layout, configuration with unit quaternions and velocity",
  "All models; (holds for scalar joints and translations, off by a factor two on rotations).",
  [a(LIE,"jac_dq2v"),a(MO,"integrate")])
p("Joint zero is a valid configuration",
  "`get_joint_zero` has nq entries, zero on scalar and translational coordinates, and unit quaternions on rotational ones.",
  "every joint layout","All joint sequences.",
  [a(LIE,"get_joint_zero")])
p("Joint difference",
  "`joint_difference(q1, q2)` has nv entries, vanishes when q1 = q2, and on every joint measures the displacement in the same direction.",
  "every joint layout and pair of configurations",
  "All joint sequences; (sign differs between scalar and quaternion joints).",
  [a(LIE,"joint_difference")])
p("Frame Jacobians only involve ancestors",
  "The column of a frame Jacobian for a degree of freedom is zero unless that degree of freedom belongs to the object's body or one of its ancestors.",
  "every kinematic tree, object and state","Trees of any size and depth.",
  [a(MO,"get_frame_jacobian_world_aligned","get_frame_jacobian_local"),a(CO,"geom_point_jacobian")])
p("Local and world-aligned frame Jacobians describe the same motion",
  "The local Jacobian is the world-aligned one with both blocks rotated by the transpose of the object's rotation; so for orthonormal rotations they give velocities of equal norm and one is recovered from the other.",
  "every tree, object, state","All reals and trees.",
  [a(MO,"get_frame_jacobian_local","get_frame_jacobian_world_aligned")])
p("Relative transform",
  "`get_transform(source, dest)` maps coordinates in the source frame to coordinates in the dest frame.",
  "every pair of frames","All poses; (the code multiplies dest by source instead).",
  [a(MO,"get_transform","get_transform_frame_to_world")])
p("Configuration limit rows",
  "With a limit l, the rows returned by `get_configuration_limit` are satisfied by v iff |v_i| <= l_i for all i.",
  "every limit and velocity","All reals.",
  [a(MO,"get_configuration_limit")])
# ---- collisions
p("Collision pairs are exactly the admissible geom pairs",
  "The generated pairs are, without repetition and sorted inside, exactly the geom pairs of two different listed bodies that are not excluded, not welded together, not weld-parent/child, and whose contype/conaffinity allow contact.",
  "every model, body list and exclusion list","All models and lists.",
  [a(SC,"SelfCollisionBarrier._generate_collision_pairs","SelfCollisionBarrier.validate_body_pair","SelfCollisionBarrier.validate_geom_pair")])
p("Collision pair set ignores listing order",
  "Reordering the list of bodies, or flipping and reordering the exclusions, yields the same set of collision pairs.",
  "every permutation of the inputs","All permutations.",
  [a(SC,"SelfCollisionBarrier._generate_collision_pairs"),a(CO,"sorted_pair")])
p("Grouping loses no pair",
  "Grouping geom pairs for the collision functions keeps every pair exactly once (possibly flipped so that types are ordered), and all pairs of a group share types, mesh ids and condim.",
  "every model and pair list","All lists.",
  [a(CO,"geom_groups")])
p("Self-collision barrier is nonnegative iff all pairs are apart",
  "With n_closest_pairs >= 1 the barrier values are the n smallest distances in increasing order minus d_min; all are nonnegative iff every collision pair is at least d_min apart.",
  "every list of distances, n and d_min","All lists and reals.",
  [a(SC,"JaxSelfCollisionBarrier.__call__")])
p("Self-collision Jacobian rows use the bodies of their pair",
  "Row i of the self-collision Jacobian uses the two bodies whose geoms are at the i-th reported distance.",
  "every model and pair list","All models; (the code violates it when pairs are regrouped).",
  [a(SC,"JaxSelfCollisionBarrier.compute_jacobian"),a(CO,"compute_collision_pairs","geom_groups")])
p("Unknown bodies are refused",
  "A self-collision barrier that names a body absent from the model is refused.",
  "every model and name","All models; (the code silently uses the last body).",
  [a(SC,"SelfCollisionBarrier.body2id")])
p("Equality constraint size",
  "The model equality constraint has 3 rows per connect, 6 per weld, 1 per joint equality, refuses models with other types, and its residual and Jacobian are exactly the equality rows of the simulator.",
  "every model","All equality lists.",
  [a(EQ,"ModelEqualityConstraint.update_model","JaxModelEqualityConstraint")])
p("Position limit types",
  "`from_str` accepts exactly min, max, both up to case and `includes_min`/`includes_max` are true exactly for the types that bound from that side.",
  "every string","All strings.",
  [a(TY,"PositionLimitType.from_str","PositionLimitType.includes_min","PositionLimitType.includes_max")])
# ---- frames, CoM
p("Frame task error vanishes exactly at the target",
  "Without mask, the frame task error is zero iff the object's frame equals the target frame; targets given as arrays are read as (x,y,z,qw,qx,qy,qz).",
  "every frame and target","All poses.",
  [a(FT,"JaxFrameTask.__call__","FrameTask.update_target_frame")])
p("Frame task Jacobian is the derivative of the error",
  "The frame task Jacobian maps a velocity to the time derivative of the frame task error.",
  "every pose, target and velocity","All reals; (the code uses target^-1 frame^-1).",
  [a(FT,"JaxFrameTask.compute_jacobian")])
p("The CoM the CoM task controls is the mass-weighted mean",
  "The position whose error the CoM task measures and differentiates is the mass-weighted mean of body positions over the whole tree (when total mass is at least mjMINVAL).",
  "every tree","Trees of any size.",
  [a(CT,"JaxComTask.compute_jacobian","JaxComTask.__call__")])
# ---- visualizer
p("Marker ids",
  "Marker ids are consecutive from zero, unique, and each drawn marker uses its own scene slot inside the scene.",
  "every sequence of add_markers calls","All histories.",
  [a(VI,"BatchVisualizer.add_markers","BatchVisualizer._draw_markers")])
p("Marker rotation",
  "A marker given by a unit quaternion is drawn with an orthogonal rotation matrix of determinant one that rotates vectors as the quaternion does.",
  "every unit quaternion","All reals.",
  [a(VI,"MarkerData.rot_matrix")])
p("Marker colours",
  "When several markers are added with a start and end colour, the i-th colour interpolates linearly from color_begin to color_end.",
  "every marker count and colours","All counts; (the code runs from end to begin).",
  [a(VI,"BatchVisualizer.add_markers")])
p("Body flattening keeps the world",
  "Removing the top-level body tags keeps, in order, every non-body child of the worldbody and the children of every top-level body.",
  "every XML tree","All trees.",
  [a(VI,"BatchVisualizer.remove_high_level_body_tags")])
p("Asset name restoration",
  "An asset file name `stem-hash.ext` is restored to `stem.ext`.",
  "every stem, hash, extension","All strings.",
  [a(VI,"BatchVisualizer._generate_mj_model")])
p("vmap axes specification",
  "`set_vmap_dimension` yields data of the same structure as the compiled problem in which every axis is None except those the user sets.",
  "every problem","All component sets.",
  [a(PR,"Problem.set_vmap_dimension")])
# ---- further properties
p("Every component's value, gain and Jacobian agree in size",
  "For every component a problem compiles, the value returned by the compiled component has dim entries, its Jacobian has dim rows and nv columns, and its gain vector has dim entries, provided targets, limits and masks were accepted by the setters.",
  "every component class, model, mask and history of accepted settings","The sizes come from different settings (mask, limit type, equality rows, requested pairs) and must agree for every combination.",
  [a(B,"JaxComponent"),a(TB,"JaxTask"),a(PB,"JaxPositionBarrier"),a(SC,"JaxSelfCollisionBarrier"),a(EQ,"JaxModelEqualityConstraint")])
p("Global IK converges on joint tasks with gradient descent",
  "With plain gradient descent of learning rate r and one joint task with gain g, every step multiplies each error by (1 - 2 r g); so for 0 < r g < 1 the error tends to zero.",
  "every model with scalar joints, target, starting point and number of steps","All histories of solver steps.",
  [a(GI,"GlobalIKSolver.solve","GlobalIKSolver.loss_fn"),a(JT,"JaxJointTask")])
p("Global IK returns valid configurations",
  "The configuration returned by the global IK solver has unit quaternions whenever the starting one has.",
  "every model, problem and optimiser","All models; (the code adds the step to the quaternion coordinates).",
  [a(GI,"GlobalIKSolver.solve")])
p("Integration yields valid configurations",
  "`integrate` keeps the number of coordinates and returns unit quaternions; zero velocity or zero time changes nothing; integrating for s and then for t, with the same velocity, equals integrating for s + t.",
  "every model, configuration, velocity and time","All models and reals.",
  [a(MO,"integrate")])
p("Assets come from the model directory",
  "The assets handed to MuJoCo are, under exactly the restored names used by the document, the contents of the first file of that name found below the model's directory; the call fails iff one of them is missing.",
  "every document and directory tree","All trees.",
  [a(VI,"BatchVisualizer.remove_high_level_body_tags","BatchVisualizer.__find_asset")])
p("Only geometries of the requested group are shown",
  "The combined model contains, for every copy and in order, exactly the geometries whose group (own or from the default class) is the requested one or is unspecified, and none of them collides.",
  "every model, number of copies and group","All models and class assignments.",
  [a(VI,"BatchVisualizer._generate_mj_model")])
p("Transparency is applied once",
  "Every shown geometry and every material is drawn with its original colour and its opacity multiplied by alpha.",
  "every model, number of copies and alpha","All models; (the code multiplies a class colour once per geometry that uses it).",
  [a(VI,"BatchVisualizer._generate_mj_model")])
p("Copies are told apart",
  "Names in the combined model are distinct if those in the file are, and lights and cameras appear once.",
  "every model and number of copies","All counts.",
  [a(VI,"BatchVisualizer._generate_mj_model","BatchVisualizer.get_prefix")])
p("Updating the visualizer",
  "A successful update stores the given configuration, leaves markers as they are, and adds exactly one frame when recording and none otherwise; so a recording visualizer holds as many frames as there were successful updates.",
  "every history of calls","All histories.",
  [a(VI,"BatchVisualizer.update")])
p("vmap axes stay valid while only arrays change",
  "Axes obtained from `set_vmap_dimension` fit every later compiled problem that differs only in targets, gains, costs and limits; they are rejected for a compiled problem in which a component with a static field (class, dimension, gain function, mask indices, damping, object, limit rows, collision pairs, hardness) differs, in particular after `lm_damping` was changed.",
  "every problem and later setting","All histories of updates.",
  [a(PR,"Problem.set_vmap_dimension","Problem.compile")])
p("Automatically differentiated Jacobians give the rate of change of the value",
  "For the centre-of-mass task, the position task and the position barrier, whose Jacobian is obtained by automatic differentiation, the Jacobian applied to a velocity is the rate at which the value changes when the configuration is integrated with that velocity.",
  "every model, configuration with unit quaternions, target and velocity","All models and reals; (with free or ball joints the code doubles the contribution of their angular velocity).",
  [a(B,"JaxComponent.compute_jacobian"),a(CT,"JaxComTask.compute_jacobian"),a(LIE,"jac_dq2v")])
p("A batch of targets is solved as if each target had been set alone",
  "Task targets may be set as arrays with a batch axis in front. If axis 0 is given to the targets that were set, via `set_vmap_dimension`, then `jax.vmap` accepts the axes, and the problem its k-th call receives is the one that compiling with the k-th targets alone gives; setting one target alone is accepted whenever setting the batch is.",
  "every program, every sequence of batched target updates, every batch size and element","All histories, batch sizes and combinations of tasks.",
  [a(PR,"Problem.set_vmap_dimension","Problem.compile"),a(CT,"ComTask.update_target_com"),a(PT,"PositionTask.update_target_pos"),a(FT,"FrameTask.update_target_frame"),a(JT,"JointTask.update_target_q")])
p("The last accepted value wins",
  "Every setting a component has (gain, cost, damping, safe displacement gain, target, limits, minimal distance, number of closest pairs, active and hard flags) is the one of the last accepted call that sets it, whatever other calls happened before, between and after, and whichever of them were rejected; if there was none it is the constructor's. The compiled component carries exactly these values.",
  "every component class, constructor argument and history of setter calls and model updates","All histories.",
  [a(B,"Component.update_gain","Component.jax_component"),a(TB,"Task.update_cost"),a(CB,"Constraint"),a(JT,"JointTask.update_target_q"),a(JB,"JointBarrier.update_q_min","JointBarrier.update_q_max"),a(PB,"PositionBarrier.update_p_min","PositionBarrier.update_p_max"),a(SC,"SelfCollisionBarrier")])
p("The local problem has an optimal velocity",
  "When no barrier is violated, hard constraints hold and the limits contain zero, standing still satisfies all constraints; and whenever some velocity satisfies all constraints an optimal velocity exists, whatever the costs, gains and damping.",
  "every list of components of fitting sizes","All real problems; existence of a minimum is not testable.",
  [a(LI,"LocalIKSolver.__compute_qp_matrices","LocalIKSolver.solve_from_data")])
p("The optimal velocity is unique",
  "If some barrier has a positive safe displacement gain, or some task has positive damping and a nonzero weighted error, or the weighted Jacobians have no common nonzero velocity in their kernel, there is at most one optimal velocity; in any case all optimal velocities give every task the same weighted rate.",
  "every list of components of fitting sizes with nonnegative gains","All problems and velocities.",
  [a(LI,"LocalIKSolver.__compute_qp_matrices","LocalIKSolver.__process_task","LocalIKSolver.__process_barrier","LocalIKSolver.solve_from_data")])
p("Compatible tasks are all met",
  "Without damping and safe displacement gains, if one velocity within limits, barriers and hard constraints meets all tasks at once, then exactly such velocities are optimal, and every task with a nondegenerate cost gets J v = -gain * gain_fn(error).",
  "every list of components of fitting sizes","All problems and velocities.",
  [a(LI,"LocalIKSolver.__compute_qp_matrices","LocalIKSolver.__process_task","LocalIKSolver.__process_barrier","LocalIKSolver.solve_from_data")])
p("Only the ratio of costs matters",
  "Multiplying the costs of all tasks and soft constraints by the same nonzero number, and the safe displacement gains by its square, changes neither the feasible nor the optimal velocities.",
  "every list of components and every nonzero factor","All problems and factors.",
  [a(LI,"LocalIKSolver.__compute_qp_matrices","LocalIKSolver.__process_task","LocalIKSolver.__process_barrier","LocalIKSolver.solve_from_data")])
p("KKT points are optimal",
  "A velocity for which multipliers satisfying the KKT conditions of the QP exist, which is what the residuals of the QP solver measure, is optimal, provided damping and safe displacement gains are nonnegative.",
  "every problem of fitting sizes, velocity and multipliers","All problems; (the damping setter accepts negative values, for which this fails).",
  [a(LI,"LocalIKSolver.__compute_qp_matrices","LocalIKSolver.__process_task","LocalIKSolver.__process_barrier","LocalIKSolver.solve_from_data")])
p("Components act independently on the local problem",
  "Adding a component to a problem adds its conditions to the feasible set and its cost to the objective and changes nothing else; a task or soft constraint with zero cost changes neither the feasible nor the optimal velocities.",
  "every list of components, position and new component","All problems and positions.",
  [a(LI,"LocalIKSolver.__compute_qp_matrices","LocalIKSolver.__process_task","LocalIKSolver.__process_barrier","LocalIKSolver.solve_from_data")])
p("What compiles can be solved",
  "A problem that compiles can be evaluated and solved at every configuration of the right length: every component has a value and a Jacobian, the quadratic program can be assembled, and the solver returns a solution; the only configurations at which the program is not finite are those where the Jacobian of a barrier is all zero. A configuration of another length is refused.",
  "every sequence of API calls ending in a compilation, every configuration","All programs and configurations.",
  [a(LI,"LocalIKSolver.solve","LocalIKSolver.solve_from_data","LocalIKSolver.__compute_qp_matrices"),a(B,"JaxComponent.compute_jacobian","JaxComponent.__call__"),a(SC,"JaxSelfCollisionBarrier.compute_jacobian","JaxSelfCollisionBarrier.__call__"),a(PR,"Problem.compile")])
p("Continuous motion is safe and converges",
  "When the velocity is chosen anew at every moment and satisfies the constraints of the problem at that moment, every barrier value that is nonnegative at the start stays nonnegative, for every nonnegative gain and every gain function that is not positive on violations; with the default gain function it shrinks at most like exp(-gain t). When the velocity meets a task at every moment, the error is exp(-gain t) times the error at the start. In particular joints never leave their limits.",
  "every motion, every gain, every history of the barrier or task, every other component in the problem","All continuous motions; tests see finitely many time steps.",
  [a(LI,"LocalIKSolver.solve_from_data","LocalIKSolver.__process_barrier"),a(JB,"JaxJointBarrier.__call__","JaxJointBarrier.compute_jacobian"),a(PB,"JaxPositionBarrier.__call__"),a(JT,"JaxJointTask.__call__"),a(PT,"JaxPositionTask.__call__"),a(CT,"JaxComTask.__call__"),a(B,"JaxComponent.compute_jacobian"),a(LIE,"jac_dq2v")])
p("Which values are accepted",
  "A constructor returns normally iff lm_damping is nonnegative, the cost has at most two dimensions, the gain at most one, the mask (three entries for a CoM task, one-dimensional otherwise) fits, and, for a position barrier, the limit type is min, max or both and each given limit is a number or has one entry per selected axis. After any history a setter returns normally iff the class has it and its argument fits: gain at most one dimension, cost at most two, targets with one entry per selected axis (any target before a joint task knows its dimension, seven numbers or an SE3 for a frame), joint limits with one entry per selected joint (none before the model is known), position limits a number or one entry per axis, flags and numbers always. A joint task takes a model iff its mask has one entry per scalar joint and its target fits; a joint barrier iff its mask fits and it needs no default limit for a joint it skips; an equality constraint iff all equalities are connect, weld or joint. A problem is created iff both velocity limits are numbers or have nv entries.",
  "every constructor call, every history of calls on the component, every argument","Iff over all shapes after all histories; tests try a few wrong shapes on fresh objects.",
  [a(B,"Component.__init__","Component.update_gain","Component.dim"),a(TB,"Task.__init__","Task.update_cost"),a(CT,"ComTask.__init__","ComTask.update_target_com"),a(JT,"JointTask.update_target_q","JointTask.update_model"),a(PT,"PositionTask.update_target_pos"),a(FT,"FrameTask.update_target_frame"),a(JB,"JointBarrier.update_q_min","JointBarrier.update_q_max","JointBarrier.update_model"),a(PB,"PositionBarrier.__init__","PositionBarrier.update_p_min","PositionBarrier.update_p_max"),a(EQ,"ModelEqualityConstraint.update_model"),a(PR,"Problem.__init__")])
p("Components measure the object they name",
  "The value of a compiled position task, frame task or position barrier is computed from the position (and rotation) of the body, geometry or site that has the given name in the model, restricted to the axes the mask selects, in order, compared with the current target or bounds; that of a CoM task from the centre of mass of the whole robot.",
  "every constructor call, every history of calls, every model, every state of the robot","All names, models, masks, histories and states; a wrong index may still read a plausible number.",
  [a(PT,"JaxPositionTask.__call__"),a(CT,"JaxComTask.__call__"),a(FT,"JaxFrameTask.__call__"),a(OT,"ObjTask.update_model","JaxObjTask.get_pos","JaxObjTask.get_rotation","JaxObjTask.get_frame"),a(PB,"JaxPositionBarrier.__call__"),a(OB,"ObjBarrier.update_model","JaxObjBarrier.get_pos")])
p("The local solver returns the best allowed velocity",
  "After any program, the velocity returned by the local solver (with an exact QP solver) is, among all velocities within the velocity limits that let no barrier of the problem fall faster than gain * gain_fn(value) and move every hard equality constraint exactly as asked, one for which the sum of the prices of the components is least: tasks and soft constraints pay half the squared norm of cost * (J v + gain * gain_fn(value)), tasks also damping times the squared weighted error times the squared velocity, barriers the safe displacement gain times the squared velocity over the squared norm of J; gain, cost, damping and the rest are the current attributes of exactly the components that are in the problem.",
  "every sequence of API calls ending in a compilation, every configuration at which sizes fit, every velocity","All programs, configurations and competing velocities.",
  [a(LI,"LocalIKSolver.solve","LocalIKSolver.solve_from_data","LocalIKSolver.__compute_qp_matrices","LocalIKSolver.__process_task","LocalIKSolver.__process_barrier"),a(B,"Component.jax_component","Component.vector_gain"),a(TB,"Task.cost","Task.matrix_cost"),a(PR,"Problem.compile","JaxProblemData")])
p("What the global solver descends on",
  "After any program, the loss of the global solver at a configuration is the sum, over exactly the components that are in the problem, of gain * value^2 for the entries of tasks and of -gain * log(value clipped to [1e-9, 1]) for the entries of barriers, with the current gains; cost, damping, gain function and safe displacement gain play no part, and no loss is accepted for a problem with a constraint. With plain gradient descent a step moves every coordinate of the configuration by minus the learning rate times the partial derivative of that sum, and the returned velocity is the step over dt.",
  "every sequence of API calls ending in a compilation, every configuration, every learning rate and dt","All programs and configurations.",
  [a(GI,"GlobalIKSolver.loss_fn","GlobalIKSolver.solve","GlobalIKSolver.__log_barrier"),a(B,"Component.jax_component","Component.vector_gain"),a(PR,"Problem.compile","JaxProblemData")])
p("Control programs keep joints within their limits",
  "A program may mix API calls (new, added, removed or changed components, other gains and targets, other problems) and control steps (compile the problem, solve at the current configuration, move with the velocity for dt seconds) in any order. If at every control step the problem contains a joint barrier with the given limits that asks for at most the distance to the limit in one step (gain * dt <= 1 with the default gain function), joints that start within the limits are within them ever after; steps that raise leave the robot where it is. If the problem consists of tasks and such barriers, and the velocity limits allow standing still, nothing has to be assumed about solvability.",
  "every sequence of API calls and control steps, every start configuration, every QP solver that finds feasible points","All interleavings of calls and steps, of unbounded length.",
  [a(LI,"LocalIKSolver.solve","LocalIKSolver.__process_barrier"),a(JB,"JaxJointBarrier.__call__","JaxJointBarrier.compute_jacobian","JointBarrier.update_model"),a(B,"Component.jax_component","Component.vector_gain"),a(PR,"Problem.compile","Problem.add_component","Problem.remove_component"),a(MO,"integrate")])
p("Control programs follow joint tasks",
  "A program may mix API calls and control steps as in C93. If at every control step the problem contains a joint task with a given target, gains g and the default gain function, the step raises nothing, and the problem is compatible (no damping, no safe displacement gain, and some allowed velocity meets all tasks and soft constraints at once), the error of every selected joint after n control steps is exactly (1 - g * dt)^n times the error at the start, whatever the other calls did. If the problem consists of such joint tasks and joint barriers whose limits contain start and target and which allow approaching a limit as fast as the gains ask, and the velocity limits do not cut off the velocity asked for at the start, compatibility need not be assumed.",
  "every sequence of API calls and control steps, every start configuration, every exact QP solver","All interleavings of calls and steps, of unbounded length.",
  [a(LI,"LocalIKSolver.solve","LocalIKSolver.__process_task","LocalIKSolver.__process_barrier"),a(JT,"JaxJointTask.__call__","JaxJointTask.compute_jacobian","JointTask.update_model"),a(JB,"JaxJointBarrier.__call__","JaxJointBarrier.compute_jacobian"),a(B,"Component.jax_component","Component.vector_gain"),a(PR,"Problem.compile"),a(MO,"integrate")])
p("Videos",
  "A recording visualizer that has not been closed saves under its file name (or the current time if it has none) exactly the pictures shown right after each successful update since it was made, in order, however often it saved before; other files stay as they are, and with no successful update saving raises and writes nothing. A visualizer that does not record never writes a file, and saving only warns. The first close of a recording visualizer succeeds; afterwards every update, save and close raises and no file is written or changed.",
  "every sequence of marker calls, updates, saves and closes, every file name and frame rate","All histories, of unbounded length.",
  [a(VI,"BatchVisualizer.save_video","BatchVisualizer.close","BatchVisualizer.update","BatchVisualizer.__init__")])
p("Control programs with an approximate QP solver",
  "The QP solver of the library stops at a tolerance. If the rows of the velocity it returns are off by at most eps, a velocity is allowed by the components up to the same eps (and objectives differ by what prices differ by), and joints of a control program that start within their limits never exceed them by more than eps / gain, however long the program runs. If its objective exceeds the optimum by at most delta, a compatible joint task with costs at least mu is followed with a velocity error of at most b, where 2 delta <= (mu b)^2: after n control steps the error of each joint is at most (1 - gain dt)^n times the error at the start, plus b / gain; errors of single steps do not add up. For a joint task and joint barriers with the same gains nothing has to be assumed about compatibility.",
  "every sequence of API calls and control steps, every start configuration, all tolerances, every QP solver that meets them","All interleavings of calls and steps, of unbounded length, and all ways in which a solver can be inexact.",
  [a(LI,"LocalIKSolver.solve","LocalIKSolver.__process_barrier","LocalIKSolver.__compute_qp_matrices"),a(JB,"JaxJointBarrier.__call__","JaxJointBarrier.compute_jacobian"),a(JT,"JaxJointTask.__call__","JaxJointTask.compute_jacobian"),a(B,"Component.jax_component","Component.vector_gain"),a(PR,"Problem.compile"),a(MO,"integrate")])
p("Objects keep to themselves",
  "Every constructor call returns an object that did not exist before. Whatever the program does afterwards, a component is what its constructor built after exactly those calls of the program that concern it, in order: calls on that very object, and the model update when it is added to a problem that has no component of its name; apart from these only its compiled form is read. In particular its gain is the last acceptable one given to this object, whichever other components, problems and names there are. A problem keeps the model it was made with, and its velocity limits are the last acceptable ones given to it.",
  "every sequence of API calls","All interleavings of calls on any number of components and problems that share components and names.",
  [a(PR,"Problem.__init__","Problem.add_component","Problem.remove_component","Problem.compile","Problem.component","Problem.update_v_min","Problem.update_v_max"),a(B,"Component.__init__","Component.update_gain","Component.update_model","Component.jax_component")])
p("Control programs keep objects within position limits",
  "Between two control steps the velocity is constant while the Jacobian changes, so a position barrier is only met approximately. Consider robots whose joints are hinges and slides (for others see C78 and C88). A program may mix API calls and control steps as in C93. If at every control step the problem contains a position barrier for a named object (any limit type, any axis mask, gains of at least g with gain * dt <= 1), the solver satisfies rows up to eps, the velocity limits keep the coordinates of the object from accelerating by more than L between two control steps, and some velocity is allowed, then an object that starts within its limits exceeds them by at most b ever after, where eps + L * dt / 2 <= g * b: the excess does not add up over the steps and shrinks with their length.",
  "every sequence of API calls and control steps, every start configuration, all tolerances and step lengths, every QP solver that meets them","All interleavings of calls and steps, of unbounded length.",
  [a(LI,"LocalIKSolver.solve","LocalIKSolver.__process_barrier"),a(PB,"JaxPositionBarrier.__call__","PositionBarrier"),a(B,"JaxComponent.compute_jacobian","Component.jax_component","Component.vector_gain"),a(PR,"Problem.compile","Problem.add_component"),a(MO,"integrate","update")])
p("Control programs bring points to their targets",
  "Consider robots whose joints are hinges and slides (for others see C78 and C88). A program may mix API calls and control steps as in C93. If at every control step the problem contains a position task for a named object, or a centre-of-mass task, with a given target, axis mask, gains g (gain * dt <= 1) and costs of at least mu, and as long as the errors are at most e the problem is compatible (as in C94) and the step raises nothing, then after n control steps every selected coordinate of the point is off its target by at most (1 - gain * dt)^n times the error at the start plus (b + L * dt / 2) / gain, where L bounds the acceleration of the point between two steps under the velocity limits and 2 delta <= (mu b)^2 for a solver whose objective exceeds the optimum by at most delta.",
  "every sequence of API calls and control steps, every start configuration, all tolerances and step lengths, every QP solver that meets them","All interleavings of calls and steps, of unbounded length.",
  [a(LI,"LocalIKSolver.solve","LocalIKSolver.__process_task"),a(PT,"JaxPositionTask.__call__","PositionTask.update_target_pos"),a(CT,"JaxComTask.__call__","ComTask.update_target_com"),a(B,"JaxComponent.compute_jacobian","Component.jax_component","Component.vector_gain"),a(PR,"Problem.compile"),a(MO,"integrate","update")])
p("Set up once, steer for ever",
  "A program sets up a problem of tasks and a joint barrier as in C93. Afterwards a loop may, between the control steps, change targets, gains, costs and dampings of the tasks, make new components and problems and change those, in any order and for as long as it likes; only the barrier, the membership and the velocity limits of the problem stay as they are. Joints that start within the limits stay within them: what has to be checked is checked once, after the set-up.",
  "every set-up, every loop of any length that steers only tasks, every start configuration, every QP solver that finds feasible points","All loops, of unbounded length.",
  [a(LI,"LocalIKSolver.solve"),a(JB,"JointBarrier","JaxJointBarrier.__call__"),a(B,"Component.jax_component","Component.update_gain"),a(TB,"Task.update_cost"),a(PR,"Problem.compile")])
p("Control programs follow moving targets",
  "If the target of a joint task with gains g (gain * dt <= 1) moves by at most d between control steps, then after n control steps every selected joint is off the last target by at most (1 - gain * dt)^n times the error at the start, plus (1 - gain * dt) * d / (gain * dt), plus b / gain for a solver with tolerance as in C96; as long as the problem is compatible for joints that are off the target by at most e, and e exceeds these bounds. For a problem of one such task and joint barriers with the same gains that is set up once, and a loop that sends the task to one target within the limits after the other, nothing has to be assumed about compatibility or about errors: every control step works, the bound holds and the joints exceed their limits by at most eps / gain.",
  "every set-up, every sequence of targets of any length, every start configuration, all tolerances and step lengths, every QP solver that meets them","All sequences of targets, of unbounded length.",
  [a(LI,"LocalIKSolver.solve","LocalIKSolver.__process_task"),a(JT,"JointTask.update_target_q","JaxJointTask.__call__","JaxJointTask.compute_jacobian"),a(JB,"JaxJointBarrier.__call__"),a(B,"Component.jax_component","Component.vector_gain"),a(PR,"Problem.compile"),a(MO,"integrate")])
p("Complete components compile",
  "After any history in which no model update raised half way, a component compiles exactly when it is bound to a model, its dimension is a number of rows (not negative), its gain is one number or one per row, and its cost (of a task, or the soft-constraint cost of an equality constraint that was given one) is one number, one per row or a square matrix of that size. Compiling a problem succeeds exactly when all its components are like this; targets, limits, objects and masks that a history can leave behind never make it fail.",
  "every constructor call, every history of calls, every program","Iff over all histories and shapes.",
  [a(B,"Component.jax_component","Component.vector_gain","Component.dim"),a(TB,"Task.matrix_cost"),a(EQ,"ModelEqualityConstraint.soft_constraint_cost"),a(PR,"Problem.compile")])
p("Copies of compiled components",
  "The attributes of a compiled component are those of the component it is made of, under the field names of its class. Copying a compiled component with new values for some fields (copy_and_set) gives a component of the same class that has these values and otherwise the attributes of the original; a name that is no field of the class raises TypeError. After any history of a component, calling a setter and compiling gives the same as copying the previously compiled component with the fields the setter is about: gains and costs expanded to the dimension, targets and limits as given, frames reordered; no setter changes any other compiled field.",
  "every compiled component, all keyword arguments, every history of a component and every setter call on it","All histories and all field values.",
  [a(B,"JaxComponent.copy_and_set","Component.jax_component","Component.update_gain"),a(TB,"Task.update_cost"),a(CT,"ComTask.update_target_com"),a(JT,"JointTask.update_target_q"),a(FT,"FrameTask.update_target_frame"),a(JB,"JointBarrier.update_q_min"),a(PB,"PositionBarrier.update_p_min")])
p("The frame error is the way to the target",
  "The error of a frame task lists (the selected coordinates of) a constant velocity, linear part first, angular part second, both in the frame of the named object, with which the object moves from where it is exactly onto the target in unit time, turning by at most half a turn. Exceptions are jaxlie's thresholds: tiny rotations other than none and rotations by almost but not exactly half a turn, where its logarithm is approximate.",
  "every frame task with any mask and any history, every pose of the object and every target with unit quaternion outside of the thresholds","All poses, over the real numbers.",
  [a(FT,"JaxFrameTask.__call__","FrameTask.update_target_frame"),a(OT,"JaxObjTask.get_frame"),a(B,"Component.jax_component")])
p("Markers are shown as last set",
  "After any history of adding, moving and turning markers and of updates, with calls that raise in between, a marker exists under a name exactly if an accepted call of add_markers gave it. It has the type, colour and opacity and the size (a number stands for all three directions) of the last such call, and the position and orientation written last since then, initially upright at the origin. If no name is given twice and the viewer has room, a successful update shows exactly these markers, in the order they were added. Without recording, an update succeeds exactly if the configuration has the right length (or is one number) and all arrays of markers have the sizes MuJoCo expects.",
  "every history of calls on a visualizer, every name","All histories, of unbounded length.",
  [a(VI,"BatchVisualizer.add_markers","BatchVisualizer.update","BatchVisualizer._draw_markers","MarkerData.rot_matrix")])
p("Distances are reported pair by pair",
  "get_distance returns one distance for each of the given collision pairs, in the given order whatever the geometry types are: the smallest over the contacts of that pair; points and frames are those of the same pairs in the same order. The smallest of all is the distance that the first value of a self-collision barrier over the same pairs is computed from. No pairs at all, a height field, or a pair of types that cannot be collided raise ValueError, NotImplementedError or KeyError; the first bad pair decides.",
  "every model, state, non-empty list of pairs of geometries and every collision function","All models, lists of pairs and contact numbers.",
  [a(CO,"get_distance","compute_collision_pairs"),a(SC,"JaxSelfCollisionBarrier.__call__")])
p("Frame Jacobians give the velocities of moving objects",
  "When the robot moves from a configuration with joint velocity v, the position of a body, geometry or site changes at the rate given by the linear rows of get_frame_jacobian_world_aligned times v, and its orientation turns with the angular velocity given by the angular rows times v. get_frame_jacobian_local gives the same velocities in the axes of the object, and the point Jacobian of the collision barrier the velocity of the point as long as it is fixed to its body. This holds for any tree of free, ball, hinge and slide joints.",
  "every robot, every configuration with unit quaternions, every object or point of a body, every joint velocity","All kinematic trees of any size, over the real numbers; a derivative, not a finite difference.",
  [a(MO,"get_frame_jacobian_world_aligned","get_frame_jacobian_local","update","integrate","get_transform_frame_to_world"),a(CO,"geom_point_jacobian")])
p("Collision Jacobians of spheres are rates of distances",
  "A self-collision barrier over pairs of spheres evaluates, and each of its values belongs to a watched pair: the distance of the two surfaces minus d_min. When the robot moves with any joint velocity v, the distance of this pair changes at the rate given by the row of the Jacobian times v, as long as the centres differ; where no two distances are equal the sorted values of the barrier themselves change at these rates. For d_min > 0 and at least one reported pair, all values are nonnegative exactly when no two points of the two spheres of a watched pair are closer than d_min.",
  "every robot, every set of sphere pairs, every configuration, every joint velocity","All kinematic trees, real configurations and velocities; derivatives, not finite differences.",
  [a(SC,"JaxSelfCollisionBarrier.__call__","JaxSelfCollisionBarrier.compute_jacobian"),a(CO,"compute_collision_pairs","geom_point_jacobian","geom_groups"),a(MO,"update","integrate")])
p("Collision Jacobians of planes and spheres are rates of heights",
  "Each value of a self-collision barrier over pairs of a plane and a sphere is the height of the sphere's lowest point above the plane minus d_min, and its row of the Jacobian times v is the rate at which this height changes when the robot moves with velocity v (the plane may move too), whichever geometry of the pair has the smaller id.",
  "every robot, every set of plane-sphere pairs, every configuration, every joint velocity","All kinematic trees, real configurations and velocities; derivatives, not finite differences.",
  [a(SC,"JaxSelfCollisionBarrier.__call__","JaxSelfCollisionBarrier.compute_jacobian"),a(CO,"compute_collision_pairs","geom_point_jacobian","geom_groups"),a(MO,"update","integrate")])
p("Position and frame Jacobians agree",
  "For a robot, the Jacobian of a position task equals the selected linear rows of the world-aligned frame Jacobian of the named object, and the Jacobian of a centre-of-mass task is the mean, weighted by the masses, of the point Jacobians of the bodies' centres. So tasks that differentiate automatically and code that uses the analytic frame Jacobians speak of the same velocities.",
  "every robot, every position or centre-of-mass task, every configuration with unit quaternions, every selected axis and every degree of freedom","All kinematic trees and configurations, over the real numbers; two different algorithms have to agree.",
  [a(PT,"JaxPositionTask.__call__"),a(CT,"JaxComTask.__call__"),a(B,"JaxComponent.compute_jacobian"),a(MO,"get_frame_jacobian_world_aligned"),a(CO,"geom_point_jacobian"),a(LIE,"jac_dq2v")])
p("Continuous control avoids collisions",
  "If at every moment a robot moves with a joint velocity that satisfies the constraints of a problem containing a self-collision barrier over pairs of spheres (or of planes and spheres), and at the start no two points of a watched pair are closer than d_min, this remains so forever, although the barrier only reports the closest pairs and the closest pair may change infinitely often. With the default gain function the distances shrink to d_min at most exponentially, with the gain of the first row.",
  "every robot, every set of watched pairs, every motion of any duration that satisfies the constraints, every number of reported pairs","All continuous motions and durations; sampling cannot cover the switches of the closest pair.",
  [a(SC,"JaxSelfCollisionBarrier.__call__","JaxSelfCollisionBarrier.compute_jacobian"),a(PR,"JaxProblemData"),a(LI,"LocalIKSolver.__compute_qp_matrices"),a(CO,"compute_collision_pairs","geom_point_jacobian")])
p("Control steps avoid collisions",
  "A program may mix calls of the API and control steps of any length dt on an arm of hinges, possibly on rails. If at every control step the problem contains a self-collision barrier that reports all watched pairs of spheres with gains of at least g and gain * dt <= 1, then no two points of the spheres of a watched pair ever come closer than d_min - b, if they are not at the start and some velocity is allowed as long as they are not. Here g * b is the tolerance of the solver plus dt / 2 times the sum of the centripetal accelerations which link lengths and speed limits allow for the two spheres. The same holds for spheres above a plane that belongs to the world.",
  "every arm, every set of watched pairs, every program and number of control steps, every solver with a tolerance","All programs, arms and step lengths; what happens between two control steps is bounded by derivatives, not samples.",
  [a(SC,"JaxSelfCollisionBarrier.__call__","JaxSelfCollisionBarrier.compute_jacobian","SelfCollisionBarrier.update_model"),a(MO,"update","integrate"),a(LI,"LocalIKSolver.solve")])
p("Hard equality constraints close loops",
  "The values of a model equality constraint at a configuration are, row by row, the vectors between the anchors of the model's connect constraints and how far coupled joints are from where the coupling wants them; its Jacobian times v gives the rates of these gaps when the robot moves with joint velocity v. If at every moment a robot moves with a velocity that satisfies a problem with the constraint as hard constraint, every gap is exactly exp(-gain * t) times the gap at the start, so closed loops stay closed. Programs that mix calls of the API and control steps of length dt with gain * dt <= 1, on arms of hinges, possibly on rails: each step shrinks every gap by the factor 1 - gain * dt, up to the tolerance of the solver, and for anchors dt / 2 times their centripetal acceleration, divided by the gain; linear couplings have no such error.",
  "every robot with connect and joint equality constraints, every configuration and velocity, every feasible motion, every program and number of control steps","All kinematic trees, motions and programs; exact exponential rates over the reals, not samples.",
  [a(EQ,"JaxModelEqualityConstraint.__call__","JaxModelEqualityConstraint.compute_jacobian","ModelEqualityConstraint.update_model"),a(LI,"LocalIKSolver.__compute_qp_matrices"),a(MO,"update","integrate")])
p("An update of the visualizer that raises leaves no trace",
  "If update raises (wrong number of coordinates, a marker that cannot be drawn, no room in the scene), the recorded frames and the markers are as before. Take any history of a visualizer in which no marker name is used twice, and the same history without the updates that raised: the next update raises in both or in none, and if it succeeds, the viewer, the configuration and the recorded frames are the same. If a name is used again, this can fail: the viewer may go on showing a marker that an update drew before it raised.",
  "every history of calls of a visualizer with or without viewer and recording, every crash point within an update","All histories and every position of the marker at which drawing stops.",
  [a(VI,"BatchVisualizer.update","BatchVisualizer._draw_markers","BatchVisualizer.add_markers")])
p("The order in which pairs are watched does not change what a self-collision barrier enforces",
  "The watched pairs come out of a Python set, in an order the user does not control. Two barriers on the same model that watch the same pairs in different orders, in particular two that list the same bodies and exclusions in different orders, have the same values at every configuration or raise the same exception. If all pairs have the same geom types, meshes and contact dimensionality and no two are equally far apart, their Jacobians agree row by row. For pairs of different kinds the Jacobians can differ.",
  "every model, every list of bodies and exclusions, every order of the pairs, every configuration and simulator","All permutations of pair lists of any length; hash orders cannot be enumerated by tests.",
  [a(SC,"SelfCollisionBarrier.update_model","SelfCollisionBarrier._generate_collision_pairs","JaxSelfCollisionBarrier.__call__","JaxSelfCollisionBarrier.compute_jacobian"),a(CO,"compute_collision_pairs","geom_groups")])
p("Hard equality constraints keep bodies welded",
  "For every weld between bodies of the model, the values of a model equality constraint contain the vector between the origins of the two welded frames and the vector part of the rotation between them (times torquescale). For torquescale other than 0 these six values are zero exactly when the bodies are where the weld wants them, and the rows of the Jacobian times v are the rates at which they change when the robot moves with joint velocity v. If at every moment a robot moves with a velocity that satisfies a problem with the constraint as hard constraint, each of the six values is exactly exp(-gain * t) times its value at the start, so welded bodies stay welded. Programs that mix calls of the API and control steps of length dt with gain * dt <= 1, on arms of hinges, possibly on rails, with connect, weld and linear joint constraints: each step shrinks the six values by the factor 1 - gain * dt, up to the tolerance of the solver and dt / 2 times an acceleration given by link lengths and speed limits, divided by the gain.",
  "every robot with weld constraints between bodies (and connect and joint constraints), every configuration and velocity, every feasible motion, every program and number of control steps","All kinematic trees, motions and programs; quaternions have to be differentiated exactly, not sampled.",
  [a(EQ,"JaxModelEqualityConstraint.__call__","JaxModelEqualityConstraint.compute_jacobian","ModelEqualityConstraint.update_model"),a(LI,"LocalIKSolver.__compute_qp_matrices"),a(MO,"update","integrate")])
p("A control loop that runs keeps running",
  "Take a program that sets up a problem so that it compiles with usable settings (targets not batched, limits that fit, pairs the simulator can collide), and then loops over it: sets targets, gains, costs, limits and other settings, changes velocity limits, removes components, works with other components and problems, and makes control steps. As long as gains and costs it sets are refused or have fitting sizes, targets and limits are not batched, and it adds no component to the problem and none of the problem's components to another one, every control step compiles, and solving returns a velocity, whatever the QP solver answers; only at a configuration where the Jacobian of a barrier is all zero is the result not a number. If all barriers are joint barriers over at least one joint, no control step ever raises.",
  "every set-up, every program of any length, every configuration it comes to, every QP solver","All histories of a loop; that step 10001 cannot raise is an invariant, not a test.",
  [a(PR,"Problem.compile","Problem.update_v_min","Problem.remove_component"),a(B,"Component.jax_component","Component.update_gain"),a(TB,"Task.update_cost"),a(LI,"LocalIKSolver.solve"),a(SB,"Solver.solve")])
p("Whether solving raises depends on settings and shapes only",
  "Take two compiled problems for the same model with the same names, classes, objects, masks, limits on the same sides, collision pairs and hardness, and arrays of the same shapes; gains, costs, targets, limits, dampings and margins may have any values and components may be inactive. For configurations of the same length, solving both succeeds or raises the same exception with the local solver, and with the global solver, unless one of them goes on with infinite numbers. The QP they set up has the same sizes. Any calls that keep shapes (new targets and limits of the shape of the old ones, any accepted gains, costs, dampings, margins) lead to such a problem if it compiles, so a loop that was solved once is solved again, at every other configuration, or the result is not a number. A target of another shape is accepted and compiles but can make solving raise.",
  "every pair of compiled problems of the same structure, all configurations, solver states, every list of calls that keep shapes, every QP solver","All values of all settings at once; this is what makes it safe to try a loop once before running it.",
  [a(LI,"LocalIKSolver.solve","LocalIKSolver.__compute_qp_matrices"),a(GI,"GlobalIKSolver.solve"),a(PR,"Problem.compile"),a(B,"JaxComponent"),a(SB,"Solver.solve")])
p("Damping bounds the speed, and moving optimally never increases the total weighted error",
  "Suppose standing still is allowed by limits, barriers and hard constraints. Then the velocity an exact QP solver returns moves the weighted values of all tasks and soft constraints together towards where they are asked to go, and brings their rates together at least as close to what is asked for as standing still does. If every task has damping at least L, constraints are hard and some task is away from its target, the velocity has length at most 1 / (2 sqrt L), whatever the Jacobians, in particular near singular configurations. If a robot moves at every moment with an optimal velocity, the sum over the tasks of gain times squared weighted error never increases.",
  "every problem a program can compile, every configuration, every exact QP solver; for the motion: every simulated robot and every motion without angular velocities of free and ball joints, problems of joint, position and centre-of-mass tasks with the default gain function and one gain per task, barriers and hard constraints","All Jacobians, including arbitrarily ill-conditioned ones, and all motions over the reals; descent along a flow is an integral statement.",
  [a(LI,"LocalIKSolver.__compute_qp_matrices","LocalIKSolver.solve"),a(TB,"JaxTask","Task.lm_damping"),a(MO,"update","integrate")])
p("Costs set priorities: raising a task's cost never makes it worse, and in the limit it is met as well as possible",
  "After any program, multiply the cost of one task of a problem by s > 1 with update_cost (accepted), compile and solve with an exact QP solver at the same configuration as before. The weighted misfit of that task, measured with its old cost, does not grow, and what all other components together pay does not shrink. If dampings and safe displacement gains are not negative, the misfit of the task is at most that of any allowed velocity u plus what the others pay for u divided by s squared; so as s grows, the task is met as well as limits, barriers and hard constraints allow.",
  "every program, problem and task, every factor s > 1, every configuration and exact QP solver","All problems, Jacobians and cost matrices, and a limit in s.",
  [a(TB,"Task.update_cost","Task.matrix_cost"),a(LI,"LocalIKSolver.__compute_qp_matrices","LocalIKSolver.solve"),a(PR,"Problem.compile")])
p("Commands do not jump when targets move",
  "After any program, move the target of one joint, position or centre-of-mass task (without damping, with linear gain) with update_target, compile and solve with an exact QP solver at the same configuration as before. The weighted rates at which the values of all tasks and soft constraints move change together by at most as much as gain times the weighted change of the target: the sum of their squares is at most the square of the latter. This holds whatever limits, barriers and hard constraints are active and however ill-conditioned the Jacobians are. Velocities that are optimal for the same problem move all values at the same weighted rates.",
  "every program, problem and such task, all targets, configurations and exact QP solvers; dampings of other tasks and safe displacement gains not negative","All targets and active sets: continuity of an optimiser cannot be sampled.",
  [a(JT,"JointTask.update_target_q"),a(PT,"PositionTask.update_target_pos"),a(CT,"ComTask.update_target_com"),a(LI,"LocalIKSolver.__compute_qp_matrices","LocalIKSolver.solve"),a(B,"JaxComponent.compute_jacobian"),a(PR,"Problem.compile")])
p("Only relative positions matter: a floating robot put elsewhere with its targets gets the same commands",
  "Take a robot whose bodies all hang on free bases, and move its bases by any vector s, together with the targets and limits of all components: target positions and centres of mass, position limits, target and limit entries for the position coordinates of free joints. Every component has the same values and the same Jacobian as before, so for every QP solver solving returns the same velocity and solver state or raises the same exception. Following a velocity commutes with moving the robot, so over any number of control steps the moved robot does exactly what the other one does. For frame tasks this fails: their Jacobian depends on how far the robot is from the world's origin.",
  "every floating robot (any number of free bases, any tree), every problem of centre-of-mass, joint, position tasks, joint, position, self-collision barriers and constraints between its own bodies, every s, configuration, QP solver, number of steps","All vectors, trees and loops: tests are made near the origin, and whether anything depends on absolute positions cannot be seen from there.",
  [a(CT,"JaxComTask.__call__","JaxComTask.compute_jacobian"),a(PT,"JaxPositionTask.__call__"),a(PB,"JaxPositionBarrier.__call__"),a(SC,"JaxSelfCollisionBarrier.__call__","JaxSelfCollisionBarrier.compute_jacobian"),a(FT,"JaxFrameTask.compute_jacobian"),a(MO,"update","integrate","jac_dq2v"),a(LI,"LocalIKSolver.solve")])
p("Robots in one scene do not disturb each other",
  "Take a model with several mechanisms that are not attached to each other, and components that are about one of them: their joints, objects, pairs or constraint rows belong to it. The Jacobian of such a component is zero for all joints of the other mechanisms. So if no task is damped and no barrier has a safe displacement gain, a velocity is optimal for a problem with the components of all robots if and only if it is optimal for the components of one robot and for those of the others; what an exact QP solver returns for the problem of one robot and for the problem of the others can be put together. With damping this fails: damping a task of one robot slows down the other one. Where the other robots are does not matter either: the values and Jacobians of components about one robot, and so the optimal velocities of its own problem, damped or not, are the same for all configurations that put that robot in the same place.",
  "every model, every set of mechanisms of it, every program with a problem for one robot and a problem that also has components of others, every configuration and exact QP solver","All trees, problems and active sets; coupling through one wrong column or the damping matrix shows only in combinations of components.",
  [a(LI,"LocalIKSolver.__compute_qp_matrices","LocalIKSolver.solve"),a(MO,"get_frame_jacobian_world_aligned","get_frame_jacobian_local"),a(B,"JaxComponent.compute_jacobian"),a(JT,"JaxJointTask.compute_jacobian"),a(SC,"JaxSelfCollisionBarrier.compute_jacobian"),a(PR,"Problem.compile")])
p("Robots stop exactly where nothing is left to gain, and stay there",
  "Suppose standing still is allowed by limits, barriers and hard constraints, and dampings and safe displacement gains are not negative. Standing still is an optimal velocity exactly if no allowed velocity makes the total weighted error of tasks and soft constraints shrink; wherever some allowed velocity does, every optimal velocity does, so a robot does not get stuck where progress is possible to first order. If moreover every velocity but zero costs something (a barrier with safe displacement gain, an unmet damped task, or tasks that together see every velocity), zero is the only optimal velocity. A robot in such a configuration stays there exactly, for any number of control steps: it does not drift.",
  "every list of components a program can compile, every configuration, every exact QP solver, every step size and number of control steps","All configurations and Jacobians: that there is no other resting point and no drift over unboundedly many steps cannot be sampled.",
  [a(LI,"LocalIKSolver.__compute_qp_matrices","LocalIKSolver.solve"),a(TB,"JaxTask","Task.lm_damping"),a(MO,"update","integrate"),a(PR,"Problem.compile")])
p("Gains are rates: gains, limits and step size only set the pace",
  "Suppose no task is damped. Multiplying all gains and both velocity limits of a problem by the same positive number s (by calls of update_gain, update_v_min and update_v_max, which are always accepted) yields a problem that still compiles and is still solved, and whose optimal velocities are exactly s times the old ones. With the step size divided by s, a control loop then goes through exactly the same configurations after every number of steps: the choice of the unit of time has no influence on the path. Damped tasks break this: their damping grows with the square of the gain.",
  "every program and problem, every s > 0, every configuration, every exact QP solver, every step size and number of control steps","All programs, configurations and factors: that two runs agree in every configuration for unboundedly many steps cannot be sampled.",
  [a(LI,"LocalIKSolver.__compute_qp_matrices","LocalIKSolver.solve"),a(B,"Component.update_gain","Component.vector_gain"),a(PR,"Problem.update_v_min","Problem.update_v_max","Problem.compile"),a(MO,"integrate")])
p("Limits that do not bind have no influence",
  "Suppose dampings and safe displacement gains are not negative. If a problem gets further barriers (with safe displacement gain zero) or hard constraints, or other velocity limits, and the optimal velocity of the problem as it was keeps them and did not touch the limits that changed, then it is still optimal. Conversely, an optimal velocity that has room to every barrier or limit in some set is still optimal when these are dropped. If the tasks together see every velocity, the solver returns the very same velocity with and without them, and control loops move the robot through the same configurations: safety limits that are far away do not change what the robot does.",
  "every program with two such problems, every configuration, every exact QP solver, every number of added barriers and constraints","All configurations and limits: sampling cannot show that a limit that is not touched never changes the command.",
  [a(LI,"LocalIKSolver.__compute_qp_matrices","LocalIKSolver.solve"),a(PR,"Problem.add_component","Problem.update_v_min","Problem.update_v_max","Problem.compile")])
with open(os.path.join(os.path.dirname(__file__),"..","properties.jsonl"),"w") as f:
    for x in P: f.write(json.dumps(x)+"\n")
print(len(P))
