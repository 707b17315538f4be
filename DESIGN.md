# A Lean 4 model of mjinx

`/repo` (based-robotics/mjinx, pinned) is read as text. The model lives in `lean/Verif`, one Lean
definition per Python function, each with a comment giving file and lines. The properties are listed
in `properties.jsonl`; `MANIFEST.json` maps each one to theorems.

## 1. Trusted base

* Lean 4.33.0's kernel. No `sorry`, no own axioms, no `native_decide`/`bv_decide`. Theorems depend on
  at most `propext`, `Classical.choice`, `Quot.sound`; `AXIOMS.md` lists them theorem by theorem
  (written by `tools/axioms.py` from `#print axioms`).
* The reading of the Python source recorded in the comments of the model.
* The semantics assumed for libraries, section 3.
* The hypotheses named in section 7 where a theorem carries one.

## 2. Numbers and arrays

* Floats are modelled by an arbitrary linearly ordered field `K` (examples use `Rat`), by `Real` where
  `log`, `sin`, `cos`, derivatives or limits are needed. Rounding is not modelled. Non-finite results are
  explicit error values (`nonFinite`), never Lean's `x / 0 = 0`.
* A jax/numpy array is a shape (list of naturals) and an entry function on multi-indices. Operations
  check shapes and return an error exactly where the library raises. dtype is not modelled, so the
  `uint32` cast of a joint mask is the identity.
* Python exceptions are values. A method that may raise halfway through is a state transformer that
  returns the error *and* the partially updated object.
* Python object identity matters for components (shared between problems): components live in a heap
  and problems hold references. Mutable arguments (the exclusion list, the mask) are copied on entry;
  later mutation of the caller's list is not modelled.

## 3. What is assumed about libraries

* `jaxopt.OSQP` solves `min 1/2 v'Pv + c'v  s.t. Av=b, Gv<=h`. Only its interface is used: theorems
  speak about the QP that is handed over, or about every feasible / optimal point of it.
* `mjx.name2id` returns the id or -1. jax gather clamps out-of-range indices; numpy indexing accepts
  negative indices. `jax.lax.top_k` returns the k largest in decreasing order, ties by lower index, and
  fails for k > n.
* `mjx` forward kinematics fills the fields of `Data`; these are inputs of the model (`Env.kinematics`,
  `Env.comPos`, `Env.makeConstraint` are arbitrary functions).
  For C107, `Model/Simulator` writes down the formulas of `mjx.kinematics` and `mjx.com_pos` over `Real` (joint by joint
  along the tree, normalising quaternions; `cdof` about the centre of mass of the tree); `Simulates env G m` says that the
  open functions are these; for C108, C109, C111 and C112 also `sphere_sphere` and `plane_sphere` of `collision_primitive`; for C113 and C116 also the rows that `make_constraint` makes for `connect` and `weld` (between bodies) and `joint`
  equality constraints (`Model/SimEquality`). Read from memory of mujoco 3.x, since the library is not installed here.
* `mjx._src.forward._integrate_pos`: free/ball joints integrate the quaternion, scalar joints add `dt*v`.
* `mjx._src.scan.body_tree(..., reverse=True)` accumulates children into parents.
* `jaxlie` implements SO(3)/SE(3); `rminus(a,b) = log(a^-1 b)`. Where a theorem needs the formula
  (C43, C44, C59, C60, C70, C71), `Model/RealFns` writes down the library's formulas over `Real`,
  with the Taylor branch threshold as a parameter and all four cases of `SO3.from_matrix`.
* `jax.jacrev` / `jax.grad` return the derivative of the function they are given; `optax.sgd(a)` returns
  the update `-a * grad`. Other optimisers are arbitrary functions with state.
* `jax.tree_util`: a dataclass decorated with `jdc.pytree_dataclass` flattens to its non-static fields,
  static fields are part of the tree structure; `tree_map` and `vmap(in_axes=...)` follow
  `jax._src.api_util.flatten_axes`; `jdc.copy_and_mutate` checks shapes and structure only when asked
  to (`validate=False` here).
* `mujoco` scenes: `update_scene` resets the number of geometries, `mjv_initGeom` fills one slot;
  `dm_control.mjcf` attaches copies under a name prefix; XML is a tree of elements.
* Python dicts iterate in insertion order; sets are modelled by lists in insertion order (theorems about
  collision pairs are stated up to permutation); `str.lower` is ASCII.

## 4. Modules

| module | models |
|---|---|
| `Model/Arr` | arrays, shapes, errors (numpy / jax.numpy) |
| `Model/MjModel` | the fields of `mjx.Model` that mjinx reads |
| `Model/Data` | `mjx.Data`, SE3, `configuration/_model.py`, the data-dependent half of `configuration/_lie.py` |
| `Model/Component` | `components/_base.py`, tasks, barriers, constraints as state machines with caches |
| `Model/Problem` | `problem.py`, heap of components, operation histories |
| `Model/Eval` | compiled components: values and Jacobians |
| `Model/LocalIK`, `Model/GlobalIK` | `solvers/_local_ik.py`, `solvers/_global_ik.py`, `solvers/_base.py` |
| `Model/Collision` | `configuration/_collision.py`, pair selection of the self-collision barrier |
| `Model/Lie` | `configuration/_lie.py` |
| `Model/RealFns` | library formulas over `Real` |
| `Model/Simulator` | mjx forward kinematics and two collision functions over `Real` |
| `Model/SimEquality`, `Model/SimWeld` | the rows `make_constraint` makes for `connect`, `joint` and `weld` over `Real` |
| `Model/Visualize`, `Model/Video` | `visualize.py` |
| `Model/CopySet` | compiled components as Python objects, `copy_and_set` |
| `Model/Vmap` | pytrees of compiled problems, `set_vmap_dimension`, `vmap` |
| `Spec/*` | small independent definitions used in statements |
| `Lemmas/*` | helper lemmas |
| `Tests/Unit` | the project's unit tests, evaluated on the model |
| `Props/*` | the property theorems, each with a concrete instance |

### Modelled, by file of `/repo/mjinx`

* `typing.py`: `PositionLimitType` with all its methods; `SimplifiedContact` (as the contact record).
* `components/_base.py`, `tasks/*`, `barriers/*`, `constraints/*`: every class, constructor, property,
  setter, `update_*` method, `jax_component` and every `__call__`/`compute_jacobian`/gain function.
* `problem.py`: everything.
* `solvers/_base.py`, `_local_ik.py`, `_global_ik.py`: everything except the body of OSQP / optax.
* `configuration/_model.py`, `_lie.py`, `_collision.py`: everything except the narrow-phase collision
  functions of mjx that `get_distance` dispatches to (their contacts are an input).
* `visualize.py`: markers, colours, ids, `update`, `_draw_markers`, flattening of body tags, asset lookup
  and renaming, the model edits of `_generate_mj_model`.

### Not modelled

* `mjinx/model.py`: unfinished and cannot be imported (its annotations mention `mj.Model`, which mujoco
  does not define; the constructor is spelled `__inin__`); nothing in the package uses it.
* `jax.jit` tracing and compilation; concurrency (the library has none); rounding, overflow, dtype.
* The OSQP iteration and its options (`OSQPParameters` are passed through).
* mjx forward kinematics (except for C78, C88 on robots and C107 to C112, see section 3), narrow-phase collision (except for C108, C109, C111, C112) and constraint rows (except those of `connect`, `weld` and `joint` equality constraints for C113 and C116). Which pairs of geom types mjx has a
  collision function for is an input of the model; the `KeyError` for others is modelled.
* Direct assignment to what `update_model` computes (`barrier.collision_pairs`, `barrier.exclude_collisions`), to private attributes and to `solver.model`. Direct assignment to
  every other public attribute (`active`, `hard_constraint`, `lm_damping`, `safe_displacement_gain`, `d_min`, `n_closest_pairs`, `collision_bodies`) is an operation of the model.
* The encoding of videos and the viewer's window (I/O only).

## 5. Properties: what is modelled and how it is proved

* **C01** Compiled components are never stale. State machine of a component with cache flag; invariant `not modified -> cache = build(attrs)` by induction over operation histories.
* **C02** Compiling twice gives the same result. Same state machine; two successive compiles; equality of observable attributes.
* **C03** A problem is a name-to-component map in insertion order. Refinement to an abstract ordered map, induction over histories.
* **C04** A refused add leaves the problem as it was. Case analysis over raising points of add.
* **C05** Typed lookups return the right kind. Decision logic over the reachable states.
* **C06** Velocity limits always have one entry per degree of freedom. Invariant over histories; case analysis on shape.
* **C07** Compiled components are bound to the problem's model. Heap model with sharing: counterexample trace, and a `_partial` theorem under the hypothesis that a component is added to one problem only.
* **C08** A rejected setter call changes nothing. Case analysis of each setter (state unchanged on error).
* **C09** A rejected model leaves the component as it was. Counterexamples; `_partial` for kinds where it holds.
* **C10** Gain expansion. Equational, all shapes.
* **C11** Cost expansion. Equational, all shapes.
* **C12** Mask and mask indices agree. List lemma about nonzero positions plus invariant over histories.
* **C13** Joint masks select matching position and velocity coordinates. Induction over the joint list with running addresses.
* **C14** Joint task error and Jacobian agree along motion. Uses C13 and the model of integrate.
* **C15** Compiled shapes are consistent. Follows from C10, C11 on the build function.
* **C16** Joint barrier is nonnegative exactly inside the joint limits. Algebra on lists.
* **C17** Default joint limits work with a mask. Negation for every mask with a zero entry; `_partial` for full masks.
* **C18** Position barrier is nonnegative exactly inside the active limits. Algebra plus histories.
* **C19** Named objects resolve or are refused. Invariant over histories; counterexample for tasks; proved for barriers.
* **C20** Targets always fit the task. Invariant over histories.
* **C21** Local IK respects the velocity limits. Negation with witness, exact characterisation of the feasible box, `_partial` for symmetric limits.
* **C22** Barrier rows encode the barrier inequality. Linear algebra on stacked rows.
* **C23** Hard constraints encode the constraint equation. Linear algebra on stacked rows.
* **C24** The QP is convex. Sums of squares.
* **C25** The QP objective is the weighted task residual. Algebraic identity.
* **C26** The documented cost weighting. Negation with witness; exact form.
* **C27** Component order does not matter. Induction over permutations.
* **C28** The solution does not depend on solver history. The solver data does not occur in the QP.
* **C29** Joint limits are forward invariant. Induction over steps.
* **C30** Joint tasks converge geometrically. Induction over steps.
* **C31** The QP is finite. Explicit nonfinite result; characterisation and negation.
* **C32** Inactive constraints have no effect. Negation.
* **C33** Soft constraints act as tasks. Equational.
* **C34** solve is solve_from_data after update, and checks its input. Case analysis.
* **C35** QP shapes. Induction over components.
* **C36** Standing still at the goal. From C25 and C22.
* **C37** Global IK loss formula. Real logarithms.
* **C38** Global IK uses the task cost. Negation and exact form.
* **C39** Global IK barrier penalty repels from violations. Monotone, bounded, flat; negation of strictness.
* **C40** Global IK refuses constraints. Induction over components.
* **C41** Global IK velocity reaches the optimised configuration. Algebra.
* **C42** Skew matrix is the cross product. Algebra.
* **C43** Attitude Jacobian maps body rates to quaternion rates. Algebra; derivative over Real.
* **C44** jac_dq2v is the derivative of integration. Induction over joints; derivative over Real; negation for quaternion joints.
* **C45** Joint zero is a valid configuration. Induction over joints.
* **C46** Joint difference. Induction over joints; negation of consistent sign.
* **C47** Frame Jacobians only involve ancestors. Induction over the tree.
* **C48** Local and world-aligned frame Jacobians describe the same motion. Algebra.
* **C49** Relative transform. Negation with witness; `_partial` for dest = world.
* **C50** Configuration limit rows. Algebra.
* **C51** Collision pairs are exactly the admissible geom pairs. Membership characterisation over the double loop.
* **C52** Collision pair set ignores listing order. From C51.
* **C53** Grouping loses no pair. Induction over the pair list.
* **C54** Self-collision barrier is nonnegative iff all pairs are apart. Sorting lemmas.
* **C55** Self-collision Jacobian rows use the bodies of their pair. Negation with witness; `_partial` for a single group.
* **C56** Unknown bodies are refused. Negation; exact behaviour.
* **C57** Equality constraint size. Induction over the equality list.
* **C58** Position limit types. Case analysis over strings.
* **C59** Frame task error vanishes exactly at the target. Group law and injectivity of log at identity.
* **C60** Frame task Jacobian is the derivative of the error. Negation with witness over Real; `_partial`.
* **C61** The CoM the CoM task controls is the mass-weighted mean. Induction over the tree.
* **C62** Marker ids. Invariant over histories.
* **C63** Marker rotation. Algebra.
* **C64** Marker colours. Negation; exact form.
* **C65** Body flattening keeps the world. List induction.
* **C66** Asset name restoration. String lemma.
* **C67** vmap axes specification. Structure map.
* **C68** Every component's value, gain and Jacobian agree in size. Case analysis per class; histories without half-failed model updates; negations for unchecked settings.
* **C69** Global IK converges on joint tasks with gradient descent. Exact gradient over `Real`; induction over steps.
* **C70** Global IK returns valid configurations. Negation: Euler's identity for norm-independent losses, so the norm grows; concrete problem; `_partial` for joint tasks.
* **C71** Integration yields valid configurations. Induction over joints; quaternion algebra over `Real`.
* **C72** Assets come from the model directory. Search over a finite directory tree.
* **C73** Only geometries of the requested group are shown. List induction over the model edits.
* **C74** Transparency is applied once. Negation for shared classes; exact form.
* **C75** Copies are told apart. Injectivity of the name prefix.
* **C76** Updating the visualizer. Case analysis and induction over histories.
* **C77** vmap axes stay valid while only arrays change. Tree structure is a function of static fields; induction over setter calls; negation for static changes.
* **C78** Automatically differentiated Jacobians give the rate of change. Chain rule over real configurations and the integrated joint motion; negation for a rod on a ball joint; exact form; `_partial` for velocities without angular part.
* **C79** A batch of targets is solved as if each target had been set alone. Relation between two runs of the state machine (batched targets, one element), kept by every setter and by compiling; then leaf by leaf on the trees, with C67.
* **C80** The last accepted value wins. `latest` over the accepted calls of a history, induction over the history with one step lemma per class of call (`Lemmas/Settings`).
* **C81** The local problem has an optimal velocity. Feasibility of zero from the explicit rows; existence over the reals by compactness of the box of limits.
* **C82** The optimal velocity is unique. Midpoint identity of the quadratic form; positive definiteness in each of the three cases.
* **C83** Compatible tasks are all met. Costs are nonnegative and vanish exactly when met; C25.
* **C84** Only the ratio of costs matters. The objective is multiplied by the square of the factor.
* **C85** KKT points are optimal. Expansion of the objective around the point, C24; a witness with negative damping shows the hypothesis is needed.
* **C86** Components act independently on the local problem. Explicit form of the QP (C22, C25).
* **C87** What compiles can be solved. Totality of value, Jacobian and QP assembly by case analysis per class over the states of programs (C68's invariant), then C31; negations for barriers without pairs and too many distances.
* **C88** Continuous motion is safe and converges. Right derivatives of values along the motion (C78, C14), differential inequalities from Mathlib's mean value theorems; a concrete motion of a slide and a ball joint shows that it is false with rotations of ball joints. Frame tasks and self-collision barriers are left out: their Jacobians are not derivatives (C60, C55).
* **C89** Acceptance. `Spec/Accept` states per class what arguments fit (shapes only); iff theorems for
  constructors and, by an invariant over all histories (class and dimension), for setters; model binding by
  unfolding the update after the same invariant.
* **C90** Components measure the object they name. `Spec/Pose` says where an object of a type and index is (`PlacedAt`,
  `OrientedAs`); composition of name lookup (C19), masks (C02), targets (C20) and evaluation.
* **C91** The local solver returns the best allowed velocity. `Spec/Control` reads prices and conditions off the attributes a
  user sets, with no quadratic program; cache correctness (C01, C03) links attributes to compiled components, C22/C25 link these to the QP,
  C81 gives existence over the reals. The box of velocities is the code's, from `-v_max` to `-v_min` (C21).
* **C92** What the global solver descends on. `Spec/Descent` reads the penalty of a component off its attributes and value;
  `C92_loss` says that an accepted loss is the total penalty of the components of the problem after any program, `C92_step` that
  a step of plain gradient descent follows its partial derivatives (over the reals). `readings_unique`: the list of readings is
  determined by the program and the configuration.
* **C93** Control programs keep joints within their limits. `Spec/Loop` defines programs of API calls and control steps as a state
  machine; induction over the program with the invariant that objects are reachable and cleanly bound, C91 for one step, the compiled form of joint
  barriers for the rows. `C93_tasks_and_limits` adds that standing still is allowed.
* **C94** Control programs follow joint tasks. A compatible problem has price zero, so the best velocity pays nothing for any task (C91) and the
  rows of the joint task hold exactly; induction over the program as for C93. `C94_task_and_limits` constructs the velocity that meets the task
  within the barriers and the velocity limits, with the invariant that the errors are shares of the initial errors.
* **C95** Videos. `Model/Video` adds file name, written files and the closed flag to the visualizer; induction over histories: the frames are the
  pictures of the successful updates, a closed visualizer stays closed and writes nothing.
* **C96** Approximate QP solver. `Spec/Approx` states the two tolerances. The rows of the program are those of the components, so tolerances carry
  over row by row (as C25/C91); then the inductions of C93 and C94 with slack: `|e'| ≤ (1 - g dt) |e| + dt b` has the fixed point `b / g`.
* **C97** Objects keep to themselves. `Spec/History` selects the calls of a program that concern one object; induction over the program shows that the
  object in the heap is the one its constructor built after these calls (a refinement of the heap to independent objects). Reads of the compiled
  form are existentially quantified: C12 shows that filling in the default mask is not always invisible.
* **C98** Position limits with control steps of finite length. `Spec/Sampled` says what bounds the acceleration of a point. The value of the barrier after a
  step differs from the linear prediction by at most `L dt^2 / 2` (mean value theorem, exact Jacobian from C78); then induction as for C96 with
  the invariant that the excess is at most `b`. Robots with hinges and slides only: C78 shows that the Jacobian is wrong for other joints.
  `C98_robot` (and `C99_robot`): on arms with hinges, possibly on rails, the simulator of `Model/Simulator` bounds the acceleration by
  (sum of hinge speed limits)² × (length of all links), `Spec/Reach`; so no hypothesis about accelerations or smoothness remains.
* **C99** Points reach their targets with control steps of finite length. As C98 for the rows of position and centre-of-mass tasks (their values by C90),
  with the velocity error of C96; the invariant keeps the errors below `e`, so compatibility is only needed there.
* **C100** Set up once. `Spec/Steer` says which calls a loop may make. An invariant (same problem, same components outside the steered ones up to the
  cached mask, steered ones still tasks bound to the model) is kept by calls and compilations; then C93 applies with sizes from C68.
* **C101** Moving targets. `Spec/Follow` pairs control steps with targets; induction with `e' = (1 - g dt)(e + d) + dt b` and the invariant that errors stay
  below `e`. The loop `sendTo` keeps the shape of the problem, so compatibility follows as in C96 and success from C102 and C87.
* **C102** Complete components. `Spec/Compiles` lists what compiling needs; the other failures of compiling are excluded by an invariant over clean histories
  (indices, limits, object ids and pairs are there once a model update was accepted).
* **C103** Copies of compiled components. `Model/CopySet` views a compiled component as a class and a dictionary and models `copy_and_set` (dictionary
  merge, dataclass constructor). Merging is characterised by lookups; the setter theorem inverts both compilations and compares the objects field by field.
  `C103_attributes` reads the attributes of the object by name and compares them with the attributes of the component (`Spec.Readings`).
  Not modelled: the bookkeeping attribute that jax_dataclasses leaves in objects copied by `set_vmap_dimension`.
* **C104** Frame errors. `Spec/Motion` describes rigid motions with constant body velocity by derivatives. `Lemmas/Screw` has their closed formula
  (Rodrigues), its derivative and that jaxlie's logarithm is the velocity that reaches the pose in unit time (`V * V_inv = 1`, half-angle formulas). The
  same lemmas give what `joint_difference` means for ball and free joints (C46).
* **C105** Markers as last set. `Spec/Look` describes the look of one named marker after a history without ids, slots or dictionaries;
  `Lemmas/Look` shows that the dictionary refines it (induction over histories), `Props/Look` that the viewer shows it.
* **C106** Distances pair by pair. Induction over the list of pairs; minimum of the contacts of each pair; comparison with the sorted contacts of C54.
* **C107** Frame Jacobians and velocities. A frame moves with a twist; twists of composed frames add up; one step per joint type;
  induction over the joints of a body and over the tree; the motion axes `cdof` of a joint add up to its twist; masks as in C47.
* **C108** Spheres. `Model/Simulator` adds mjx's sphere-sphere and plane-sphere functions. The two points of a row move with their bodies (C107),
  components along the normal of sliding points do not matter, `gap` is differentiable away from 0. Sorting is locally constant where distances differ.
* **C109** Planes and spheres. As C108 with the height function; fails for pairs that list the sphere first (section 6).
* **C110** Position and frame Jacobians. For the simulator of C107 positions are differentiable in the coordinates (`Lemmas/Smooth`: induction over
  the tree), so C78 and C88 hold for robots without smoothness hypotheses (`C78_robot`, `C88_robot_*`). Both Jacobians are derivatives along `integrate` (C78, C107) and derivatives
  are unique; columns by unit velocities.
* **C111** Collisions in continuous time. Values of the barrier are minima of finitely many distances, each differentiable along the motion (chain rule with
  `Lemmas/Smooth`); row 0 belongs to some closest pair. `Lemmas/MinFlow`: apart from countably many crossing moments all closest pairs have the same
  rate, and a continuous function whose right derivative is nonnegative wherever it is small, except at countably many points, stays. Fails for planes
  with a larger id than the sphere (section 6).
* **C112** Collisions with control steps of finite length (`Props/CollisionSampled`). The vector between the centres of two spheres drifts: it is a fixed vector moving with
  constant speed plus one whose second derivative is bounded by link lengths and the square of the speed limits (`Lemmas/Turning`), so after `dt` its length is at least
  what its rate promises minus `a * dt^2 / 2` (`drift_length`). A barrier that reports all pairs has a row for each (the order is a permutation), the compiled row is a
  lower bound for the rate, and induction over the program gives `C112_spheres`. `C112_floors_partial`: planes of the world, plane listed first. `Props/CollisionSampledEx`
  has a program for both. Missing: pairs that list the sphere first (`C109_reversed`) and moving planes. A barrier that reports fewer pairs than
  it watches says nothing about the others, which can cross `d_min` within one step; then only C111 (continuous time) applies.
* **C113** Closing loops (`Spec/Loops`, `Props/LoopClosure`). `SimulatesLoops` writes down the rows of `connect` and `joint` constraints of mjx; weld rows and rows of
  other kinds are arbitrary. `C113_rows`: values and Jacobian rows are gaps and their derivatives (by C107 for the anchors). `C113_flow`: along feasible motions every gap obeys
  `f' = -g f`, so it is `exp(-g t) f(0)`, for all robots. `C113_steps`: programs with control steps, on `RailArm` robots and linear couplings; the difference of two anchors
  drifts as in C112, a coupling is exactly linear in dt; induction over the program. `Props/LoopClosureEx`: an arm whose tip is pinned to a carriage and a rack
  coupled to its hinge, as program and as motion.
* **C114** Raised updates (`Props/VisRetry`). `updateRaised` is what `update` has changed when it raises. Invariant over histories: the two visualizers agree outside the slots of
  markers (`Alike`); a successful update redraws these slots. `C114_reused_name_trace` is the counterexample with a name used again. `C114_configuration`: the configuration itself is already set when drawing raises.
* **C115** two compiled barriers whose lists of pairs are permutations of each other. Values: both are the sorted distances
  of permuted contacts (C54), and a sorted permutation is unique; errors agree case by case. `C115_listed` goes through
  `update_model` and `jax_component` with C52. Jacobian: for uniform pairs the row at a distance is the row of its contact
  (C55). Mixed kinds: a concrete robot where the order changes the row.
* **C116** Welds (`Model/SimWeld`, `Spec/Welds`, `Props/WeldClosure`). `SimulatesWelds` adds the six rows of `weld` constraints. `Welded` says that two frames coincide, point by
  point; `WeldOff` measures how far they are from that. `C116_rows`: the rows vanish exactly when `Welded` holds, and the Jacobian gives derivatives: `Lemmas/QuatRate` turns the
  angular velocities of C107 into derivatives of quaternions. `C116_flow`: exponential decay along feasible motions, as for C113. `C116_steps`: programs with control steps;
  `Lemmas/Spin` bounds the second derivative of a product of rotations by the speeds of the hinges.
* **C117** Loops that keep running (`Spec/Running`, `Props/Running`). `Ready` is a statement about the result of compiling after set-up, `Gentle` says which calls a loop may make. The
  invariant (problem and model as set up, every component still complete, usable, of the same dimension) is kept by every call; with C102 the problem compiles at every control step, with
  C87 it is solved (`C117_runs`). For joint barriers the Jacobian is never all zero (`C117_always`). `Props/RunningRobot`: on simulated robots the sizes are facts about the kinematics (`C117_robot`). A gain of a wrong size breaks it, beside the theorems: it is accepted and the next step raises.
* **C118** Shapes decide (`Spec/Structure`, `Props/Structure`). `SameProblem` names what two compiled problems have in common: the static fields and shapes, no values. A relation between two runs
  (`Alike`: both succeed with related results, both raise the same, or one is not finite) is carried through every function from component values to the step of the solver (`Lemmas/Structure`); this gives `C118_local`, `C118_global` and
  `C118_sizes`. `C118_calls` is an invariant over calls: what keeps shapes keeps the structure of what compiles. `C118_again` puts both together, `C118_robot` proves the sizes of data for simulated robots. Beside the theorems (`Props/StructureEx`): a target of shape (1, 3) is accepted, compiles, and solving raises.
* **C119** Damping and energy (`Spec/Energy`, `Props/Energy`, `Props/EnergyFlow`). `0` and `v` feasible make all `t v`, `0 ≤ t ≤ 1`, feasible; comparing the objective there, in the form C25 gives
  it, and letting `t → 1` gives `C119_descent`; Young's inequality gives `C119_speed`, `C119_misfit` and `C119_damped`. `C119_best_damped`, `C119_best_calmer` and `C119_solution` say the same of the velocities of C91, in terms of the attributes the user set.
  `C119_energy`: along a motion the energy has a derivative, by the exact Jacobians of C99 to C108, and that is `C119_descent`'s left side. Frame tasks are left out: the Jacobian of their error is not the derivative of the error (C60). Example beside it (`Props/EnergyEx`): two joints and a position task on a rail.
* **C120** Costs as priorities (`Spec/Priority`, `Props/Priority`). Two programs that differ in one call compile to problems that differ in one component (`Lemmas/Edit`: names, order and all other compiled components are the same). Comparing
  the two optima with each other's objective gives `C120_best_priority`, comparing with any allowed velocity gives `C120_best_limit`; `C120_priority` is the statement for programs. Example beside it: `Props/PriorityEx`.
* **C121** Commands that do not jump (`Spec/Priority`, `Props/Nudge`). An optimum of a convex quadratic objective is better than any other allowed point by half the square of what they differ in; adding this for the two problems and Young's inequality give `C121_best`;
  used twice on one problem, `C121_same_rates`. `C121_nudge` is the statement for programs: moving the target shifts the values by a constant and leaves the Jacobians alone (`Lemmas/Shift`). Example: `Props/PriorityEx`.
* **C122** Carrying a floating robot elsewhere (`Spec/Carry`, `Lemmas/Carry`, `Props/Carry`). By induction over the tree, poses of bodies below a free base move by `s` and keep their rotation; so centres of mass move along, motion axes
  (relative to the centre of mass) stay, contacts move along, the errors of components with moved targets stay, and the Jacobians too (`C122_component_partial`). The QP is then the same (`C122_same_command_partial`), integration commutes (`C122_integrate`), and loops
  follow by induction (`C122_loop_partial`). Missing: frame tasks, for which it is false (`C122_frame_wrong`). Example: two floating spheres that keep apart (`Props/CarryEx`).
* **C123** Robots in one scene (`Spec/Teams`, `Props/Teams`). A set of bodies closed under parents (except the world) contains all ancestors of its members, so the columns of other degrees of freedom are zero by C47, and for automatic
  derivatives by C78 and C107 (`C123_columns`). Without damping the price and the constraints of a component depend only on what it sees, so optimal velocities can be mixed (`C123_best_partial`), and C91 turns this into a statement on programs
  (`C123_program_partial`). Missing: damped tasks, for which it is false (`C123_damped_wrong`). Example: two carts (`Props/TeamsEx`).
  Where the other robots are (`Props/TeamsOwn`): the poses of bodies in `S` are computed along their ancestors, so by induction over the tree they depend only on the coordinates of `S`; values follow (`C123_own_value`); for Jacobians the velocities of C107
  determine the columns (`C123_own_jacobian`); so the terms and their optima agree (`C123_elsewhere`).
* **C124** Resting points (`Spec/Rest`, `Props/Rest`). The price of a velocity is a constant plus the slope of the total weighted error plus a non-negative quadratic form; going a small part `s` of an allowed velocity is allowed (convexity) and the slope wins
  for small `s` (`C124_rest`); where every task and soft constraint asks for rate zero all slopes vanish (`C124_targets`); the optimality condition of C119 gives `C124_progress` and, with `Pinned`, uniqueness (`C124_standstill`). In a control loop the velocity is then zero (C91) and integrating zero keeps configurations with unit
  quaternions (C71), so by induction the robot stays (`C124_stays`). Example: the rail of C108 at and away from its targets (`Props/RestEx`).
* **C125** Change of pace (`Spec/Tempo`, `Props/Tempo`). The misfit of `s v` with gains times `s` is `s` times the misfit of `v`, so without damping prices scale by `s²`, the allowed velocities by `s`, and optima correspond (`C125_best_partial`).
  `C125_calls`: the calls `speedUp` produce such a problem from any program. `C125_solves`: compiling reads only the shape of a gain, the assembled problem exists by C31, so the quicker problem compiles and is solved. `C125_program_partial` joins these
  with C91; `C125_loop_partial` is an induction over the steps, where a step of length `dt / s` with velocity `s v` is the step of length `dt` with `v`, for every kind of joint. Examples: the rail of C108 (`Props/TempoEx`).
* **C126** Slack limits (`Spec/Slack`, `Props/Slack`). A small part of the way from the best velocity to any other velocity that the remaining limits allow keeps the limits with room (finitely many strict linear inequalities); the price is convex along the way, so
  the other velocity is not cheaper (`C126_best`). `C126_program` applies it to two problems of one program with C91, in both directions, and C125's uniqueness gives equal velocities; by induction control loops with both problems go through the same configurations (`C126_loop`). Example: two carts and a joint barrier far away (`Props/SlackEx`).

## 6. Where the code disagrees with the property

Each is proved of the model with a concrete reachable witness; the property keeps its full statement in
`properties.jsonl` and the strongest true part carries the suffix `_partial`.

| property | what the code does | theorem |
|---|---|---|
| C07 | adding a component to a second problem rebinds it to that problem's model, also for the first | `C07_shared_component_rebound` |
| C09 | a refused `update_model` leaves the new model, mask or object id behind | `C09_rejected_model_changes_task`, `C09_rejected_model_changes_joint_task` |
| C12 | equality, self-collision and (after a refusal) joint components keep an outdated mask | `C12_*_stale*` |
| C17 | a joint barrier with default limits and a mask that drops a joint always raises | `C17_masked_default_refused` |
| C19 | a task whose model was refused still compiles, with object id -1 | `C19_task_after_rejection` |
| C20 | a joint task whose model was refused still compiles with a target of the wrong size | `C20_joint_after_rejection` |
| C21 | the local solver bounds the velocity by `-v_max <= v <= -v_min` | `C21_limit_rows`, `C21_asymmetric_violation` |
| C26 | the QP weighs errors with the square of the cost | `C26_weight_is_squared` |
| C31 | a vanishing barrier Jacobian makes the QP non-finite (`0/0`) | `C31_zero_jacobian` |
| C32 | the flag `active` is never read | `C32_active_ignored` |
| C38 | the global solver ignores the cost matrix of tasks | `C38_cost_ignored` |
| C39 | the global barrier penalty is flat once a barrier is violated | `C39_flat_when_violated` |
| C44 | `jac_dq2v` lacks the factor 1/2 for quaternions | `C44_quaternion_rate_wrong` |
| C46 | `joint_difference` measures scalar joints and rotations in opposite directions | `C46_directions_disagree` |
| C49 | `get_transform` multiplies `dest @ source` without an inverse | `C49_actual`, `C49_only_involutions` |
| C55 | after regrouping by geom types, Jacobian rows use bodies by list position | `C55_sign_wrong` |
| C56 | an unknown body name means the last body of the model | `C56_unknown_is_last`, `C56_unknown_accepted` |
| C60 | the frame task differentiates `log(target^-1 frame^-1 exp)` | `C60_wrong` |
| C62 | in recordings the markers overwrite the last model geometries, and with more markers than geometries the first markers are silently not shown; re-used names leave id gaps | `C62_recording_replaces_model`, `C62_recording_loses_markers`, `C62_reused_name_gap` |
| C64 | two-colour markers are interpolated backwards | `C64_reversed` |
| C68 | settings are not re-checked: `n_closest_pairs` after the model, constructor limits, masks of the wrong length | `C68_pairs_changed`, `C68_wrong` |
| C70 | gradient steps make quaternions longer than one | `C70_norm_grows`, `C70_wrong` |
| C74 | the opacity of a class colour is multiplied once per geometry using it | `C74_shared_class_wrong` |
| C87 | a self-collision barrier that watches no pair compiles, its Jacobian raises `IndexError`; one that asks for more distances than there are contacts raises `ValueError` when evaluated | `C87_no_pairs`, `C87_no_pairs_compiles`, `C54_too_many` |
| C87 | a self-collision barrier that watches a pair of geom types without collision function compiles and raises `KeyError` when evaluated | `C87_unknown_types` |
| C106 | `get_distance` lists distances per pair but points and frames per contact | `C106_points_per_contact` |
| C110 | the position task's Jacobian is twice the frame Jacobian in the angular columns of free and ball joints | `C110_position`, `C110_violated` |
| C109 | for a watched pair of a sphere with a smaller geom id than the plane (collision functions are called with the plane first, the Jacobian uses the bodies in the order of ids) the Jacobian row has the wrong sign: the barrier drives the sphere into the plane | `C109_reversed` |
| C111 | as C109: a velocity accepted by the barrier drives a sphere with a smaller geom id than the plane through the plane | `C111_violated` |
| C115 | for pairs of different geom types the Jacobian of a self-collision barrier depends on the order in which a Python set lists the pairs | `C115_mixed_differs` |
| C122 | the Jacobian of a frame task uses `T_target⁻¹ T_frame⁻¹` (see C60), so it depends on the distance from the world's origin: a robot that sits on its target gets another Jacobian if both are moved by one metre | `C122_frame_wrong` |
| C123 | the damping of a task multiplies the velocities of all joints of the model, also those the task does not depend on: a damped task of one robot halves the speed of another robot in the same scene (the safe displacement gain of barriers does the same) | `C123_damped_wrong` |
| C125 | Levenberg-Marquardt damping is multiplied by the squared gain: with all gains and velocity limits doubled, a robot with a damped task does not move twice as fast but slower than before (two carts, best velocity −2/5 instead of −1/2) | `C125_damped_wrong` |
| C88 | because of C78 a robot with a ball or free joint can leave the safe set of a position barrier although its velocity satisfies the barrier constraint at every moment | `C88_wrong` |
| C90 | a mask with more entries than axes is accepted, its surplus entries read the last axis | `C90_long_mask` |
| C90 | an object that is not a body, geometry or site is looked up by name but its id indexes bodies | `C90_camera` |
| C78 | `compute_jacobian` of the CoM task, position task and position barrier doubles the columns of angular velocities of free and ball joints (`jac_dq2v` lacks the factor 1/2 of quaternion rates) | `C78_wrong`, `C78_iff` |

Other observations, not the subject of a property: the local solver's warm start is never used;
`G` is sized by the problem's model and `H` by the solver's; the global solver ignores velocity limits
and `gain_fn`, raises `TypeError` for an empty problem, and returns a `v_opt` of size `nq`;
`PositionLimitType("MIN")` is refused by constructors though `from_str` accepts it; `body_id = -1` reads
the position of the last body but gets a zero Jacobian; `collision_pairs` is an unhashable static field.

## 7. Hypotheses used in theorems

* `KeepsScalars env m`: mjx kinematics returns the hinge and slide coordinates of the configuration it is
  given (mjx normalises quaternions and changes nothing else).
* `WellSized env p d`: every component of `p` evaluates on `d` to arrays of the sizes it declares;
  discharged by `C68_problem_partial` for whole user programs.
* `StepSized`, `Increasing`: gradient and optimiser keep the length; interpolation points increase.
* `TreeWF`: parents precede children, body 0 is the world. `CollisionWF`, `GeomsWF`: geoms of a body are
  consecutive and ids are in range. `ClassesWF`: a geometry's class index exists. `DistinctIds`: XML
  elements are distinct objects. These hold of every model MuJoCo compiles.
* `CleanRun`, `CleanProgram`: no `update_model` call failed halfway. The full statements without it
  are false (section 6).
* `JacrevExact env`: `jax.jacrev` returns the exact partial derivatives (met by `jacrevR`). `Smooth f q`: the
  value is differentiable at `q`. `PositionsKept`: `com_pos` and `make_constraint` leave object
  positions as kinematics computed them, and compute centres of mass as the CoM task does.
* `ExactSim`: `JacrevExact`, `PositionsKept`, exact integration, and kinematics keeps the configuration it is given.
  `AccelerationAtMost`, `SmoothPoint`: the point moves twice differentiably with bounded acceleration (met by the crane of
  `Props/SampledEx`, where the bound follows from the velocity limits; proved for all arms with hinges on rails by `C98_robot`).
* `RailArm G m`: only hinges and slides, and no hinge turns a slide. `PartOf m pt`: the name of the object is unique, or the robot has mass. Both
  are met by the crane of `Props/RobotSampledEx`.
* `RobotWF G m`: what MuJoCo's compiler guarantees about the tables of a robot (joints belong to bodies, hinge axes and orientations
  are normalised, free joints are alone on a child of the world, behind a ball joint there are only slides). `Simulates env G m`: the
  simulator functions are those of `Model/Simulator`. Both are met by the digger of `Props/BodyMotion`.
* `CollidesSpheres env size m`: mjx's functions for pairs of spheres and for plane and sphere are the formulas of `Model/Simulator`, with the radii `size`.
  `OneGroup m t1 t2 pairs`: all watched pairs have these types and fall in one group. Both are met by the rail of `Props/Spheres`.
* `WatchesPairs`: the problem contains a self-collision barrier for these pairs that reports all of them, with the default gain function, gains `>= γ` and
  `gain * dt <= 1`. Met by the hoist of `Props/CollisionSampledEx`.
* `SimulatesWelds` (C116): as `SimulatesLoops` below, with the six rows of each weld; `relpose` is a unit quaternion, as the compiler of MuJoCo makes it.
* `SimulatesLoops` (C113): the equality rows of the simulator are those of mjx, in the order connect, weld, joint; active constraints only. `HoldsLoops`: the
  problem contains the constraint, hard, with the default gain function. Met by the linkage of `Props/LoopClosureEx`.
* `FixedSizes` (C118): sizes of the arrays the simulator returns, numbers of contacts per pair of geom types and sizes of Jacobians do not depend on the values in the configuration. In jax this is forced by tracing; for simulated robots it is proved (`C118_robot`) up to contacts and constraint rows.
* `OptimalFlow` (C119): a differentiable motion with an optimal velocity at every moment, standing still being feasible at every moment. It is what a loop with vanishing step size does; the theorem does not claim it for steps of positive length.
* `ForgetsConstants env` (C121): `jax.jacrev` returns the same Jacobian for functions that differ by a constant; met by the exact partial derivatives (`jacrevR_forgets`).
* `Floating G m` (C122): every body attached to the world has a free joint, the world has no mass. `Portable` (C122): targets and limits have one entry per selected axis or coordinate (what the constructors make of them, unless the user sets other shapes), objects
  belong to the robot. `ContactsAlong` (C122, self-collision barriers only): collision functions see relative positions only; proved for spheres (`sphere_along`). `SameRows` (C122, equality constraints only): the rows do not depend on where the robot is, as for
  constraints between its own bodies. `DifferentiatesAlong env` (C122): `jax.jacrev` of a moved function at the moved point; met by exact partial derivatives (`jacrevR_along`).
* `Separate m S`, `IsAbout env m S j` (C123): the bodies in `S` hang on each other or on the world, and the component names only joints, objects and pairs of bodies in `S` (for equality constraints: its rows are zero elsewhere, which is what MuJoCo makes of constraints
  between bodies of `S`). `PlacedSame m S q q'`, `LooksAt env m S j` (C123): `q` and `q'` agree on the joints of `S`, and what the collision routine and the constraint
  rows say about `S` depends only on them (it holds for tasks and barriers on objects without any assumption). `Term.Plain` (C123, C117): no damping, no safe displacement gain.
* `Pinned n ts`, `NothingToGain`, `AtRest` (C124): see `Spec/Rest`; `AtRest` asks at one configuration that the compiled components have fitting sizes, standing still is allowed, and zero is the only candidate for the optimum. It holds in particular at
  configurations where all tasks are met and some barrier has a safe displacement gain or the tasks see every velocity.
* `Quicker s p w w'`, `Term.Undamped`, `Watched n ts`, `Paced` (C125): see `Spec/Tempo` and `Spec/Rest`. `Quicker` is met by the calls `speedUp` (`C125_calls`); `Paced` asks at one configuration that the problem is solved, that some velocity is
  allowed and that the tasks together see every velocity, so that there is one optimum. It is asked for the slower problem only.
* `Term.Limiting`, `Term.Spare`, `Clear` (C126): see `Spec/Slack`: components that cost nothing, barriers with room at a velocity, and velocity limits that a velocity does not touch where they differ from others. `Roomy` asks at one
  configuration that both problems are solved, that the tasks see every velocity and that every best velocity of the smaller problem keeps the added limits.
* `mt`: the tree of an `mjx.Model` is external; its entries have distinct names.

## 8. Testing the theorems

`seeded/LOG.jsonl` records edits of the model in a scratch copy that imitate bugs, the theorems that
failed, and the theorems tightened where none did.

`lean/Verif/Tests/Unit.lean` runs the assertions of the project's own unit tests on the model (about 130 evaluations with `#guard`). They are tests that the model
follows the code, not proofs, and no theorem depends on them.
