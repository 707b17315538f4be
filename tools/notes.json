{
"C01": [
"proved",
"All programs over all components and problems; compiled value is a function of the current settings, and equals what a cache-free implementation would produce."
],
"C02": [
"proved",
"Second compile returns the same result and every observable attribute is unchanged."
],
"C03": [
"proved",
"Insertion order, last-add lookup and distinct names over all programs."
],
"C04": [
"proved",
"A refused add leaves every problem as it was; a duplicate name leaves the component as it was too."
],
"C05": [
"proved",
"Both directions for task() and barrier(), over all reachable worlds."
],
"C06": [
"proved",
"Shape invariant over all programs and exact effect of each update."
],
"C07": [
"partial",
"False when a component is shared between problems with different models (C07_shared_component_rebound); proved for programs where each component meets one model."
],
"C08": [
"proved",
"Every setter of every component kind: a refused call leaves every observable attribute and the compiled value as they were."
],
"C09": [
"partial",
"False in general: a refused model change half-updates tasks (C09_rejected_model_changes_task, C09_rejected_model_changes_joint_task). Proved: the user's own settings are kept."
],
"C10": [
"proved",
"Exact expansion for ranks 0 and 1, refusal of every other shape."
],
"C100": [
"proved",
"Spec/Steer. C100_joint_limits: set-up checked once, any loop that steers only tasks; example with arbitrary targets."
],
"C101": [
"proved",
"Spec/Follow. C101_follows: moving targets for every control program. C101_targets: the loop that sends a task set up once to one target after the other; works, follows and keeps limits without further assumptions; example with arbitrary targets."
],
"C102": [
"proved",
"Spec/Compiles. C102_component, C102_problem: compiling succeeds exactly for complete components; after histories in which no model update raised (see C19, C20)."
],
"C103": [
"proved",
"Copies keep class and all other fields; setter + compile = copy with the changed fields, for every reachable component and setter."
],
"C104": [
"proved",
"For named bodies, geometries and sites, any mask of length six; outside of the thresholds where jaxlie's logarithm is approximate (stated in the theorem by the trace of the relative rotation)."
],
"C105": [
"proved",
"For the viewer; recordings disagree (C62_recording_replaces_model, C62_recording_loses_markers). The colour is the one the code mixes, whose order C64 complains about."
],
"C106": [
"partial",
"Points and frames are stacked per contact, not per pair (C106_points_per_contact): with several contacts per pair they do not belong to the distances at the same positions; proved for single contacts. Distances, agreement with the barrier and refusals are proved in full."
],
"C107": [
"proved",
"Over the real numbers, with the formulas of mjx's kinematics and com_pos written down in Model/Simulator. C107_world and C107_local: position and rotation matrix; C107_point: points of bodies."
],
"C108": [
"proved",
"Over the real numbers, with the formulas of mjx's kinematics and sphere_sphere written down in Model/Simulator. C108_spheres: rates pair by pair; C108_values: rates of the sorted values; C108_apart: meaning of nonnegative values."
],
"C109": [
"partial",
"C109_planes_partial: pairs that list the plane first. C109_reversed: for a pair that lists the sphere first the row is the rate with the wrong sign."
],
"C11": [
"proved",
"Exact expansion for ranks 0, 1 and 2 for tasks, and for soft constraint costs."
],
"C110": [
"partial",
"C110_position and C110_com: exact relation, with a factor 2 in the angular columns of free and ball joints; equal for robots without such joints (C110_position_partial); C110_violated: a concrete free body."
],
"C111": [
"partial",
"C111_spheres, C111_spheres_rate: sphere pairs in full. C111_planes_partial, C111_planes_rate_partial: planes listed first. C111_violated: with the sphere listed first a robot that follows accepted velocities drives into the plane."
],
"C112": [
"partial",
"C112_spheres: full property for spheres. C112_floors_partial: spheres above planes of the world that have the smaller geom id; with the larger id the Jacobian has the wrong sign (C109_reversed, C111_violated), moving planes are missing. Program that meets the hypotheses of both: Props/CollisionSampledEx."
],
"C113": [
"proved",
"C113_rows, C113_flow (all robots), C113_steps (arms of hinges on rails, linear couplings, as in the statement). Rows of weld constraints are arbitrary here; C116 treats them. Program and motion that meet the hypotheses: Props/LoopClosureEx."
],
"C114": [
"proved",
"Histories of any length. The statement excludes names used twice; C114_reused_name_trace shows that it is false for them."
],
"C115": [
"partial",
"Values: proved for all pairs (C115_values, C115_listed). Jacobian: proved for pairs of one kind at distinct distances (C115_rows_partial); C115_mixed_differs shows that the code violates it for pairs of different kinds, as in C55."
],
"C116": [
"proved",
"C116_rows, C116_flow (all robots), C116_steps (arms of hinges on rails with connect, weld and linear joint constraints). Program and motion that meet the hypotheses: Props/WeldClosureEx."
],
"C117": [
"proved",
"C117_runs for all kinds of components, with the singular configurations of barriers named in the conclusion (they are what C87 is partial for); C117_always when the barriers are joint barriers; C117_robot: both on every robot with the kinematics of mjx, where nothing is assumed about sizes of data. Hypotheses: no model update failed half way (C17, C21), the simulator returns arrays of fitting sizes."
],
"C118": [
"proved",
"C118_local, C118_global: ends alike; C118_sizes: the QP has the same sizes; C118_calls, C118_again: programs that keep shapes; C118_robot: the hypothesis about sizes is met by every robot with the kinematics of mjx. Hypothesis FixedSizes (DESIGN 7)."
],
"C119": [
"proved",
"Descent, speed bound and misfit for every assembled problem with an optimal velocity; for programs through C91_real_solution with an exact solver. The energy theorem covers joint, position and CoM tasks with the default gain function and one gain per task, barriers and hard constraints, without angular velocities of free/ball joints."
],
"C12": [
"partial",
"False for equality and self-collision components, and for joint components after a refused model change (C12_*_stale*). Proved for the remaining kinds over all histories."
],
"C120": [
"proved",
"Exact QP solver (`Exact`); `WellSized` for both problems."
],
"C121": [
"proved",
"Frame tasks are left out: their Jacobian depends on the target. Exact QP solver; `ForgetsConstants`, `FixedSizes`."
],
"C122": [
"partial",
"Components, commands and loops are proved for all components except frame tasks, for which the claim is false: C122_frame_wrong gives a robot on its target whose frame task has another Jacobian after both have been moved by one metre (consequence of C60)."
],
"C123": [
"partial",
"Columns proved for every component class but centre-of-mass tasks (which are about all bodies); the decomposition and the programs are proved for undamped tasks and barriers without safe displacement gain. With damping it is false: C123_damped_wrong."
],
"C124": [
"proved",
"The slope is the first-order change of the total weighted error; Pinned is needed for uniqueness only. C124_stays is over the reals with exact quaternion integration and an exact QP solver."
],
"C125": [
"partial",
"Missing: damped tasks. The claim is false for them (C125_damped_wrong): damping grows with the square of the gain. C125_calls and C125_solves hold without restriction."
],
"C126": [
"proved",
"Over the reals with an exact QP solver for programs; C126_best over any ordered field. A barrier with a positive safe displacement gain does have an influence when far away, by its documented purpose."
],
"C13": [
"proved",
"For every history without a rejected model update: value entry i reads the configuration coordinate and Jacobian row i selects the velocity coordinate of the i-th selected scalar joint (tasks and barriers); masks of the wrong length are refused."
],
"C14": [
"proved",
"Exact difference along integrate for every velocity and time step; assumes mjx kinematics keeps hinge/slide coordinates (KeepsScalars), unbatched target."
],
"C15": [
"proved",
"Shapes of gain, cost and mask of every compiled component."
],
"C16": [
"proved",
"Componentwise nonnegative iff within limits; default limits are the model ranges of the selected joints whenever the model is accepted."
],
"C17": [
"partial",
"False as stated: a mask that drops any joint makes the model update raise (C17_masked_default_refused). Proved for masks that drop no joint."
],
"C18": [
"proved",
"For every limit type, length-3 (or absent) mask and every history of calls. Bounds with more than one axis are outside (they cannot be used without vmap)."
],
"C19": [
"partial",
"Proved for barriers after every history and for refusal/acceptance of models; for tasks proved when the most recent model update was accepted (C19_task_object_partial). False in general for tasks: after a rejected model the task still compiles with id -1 (C19_task_after_rejection)."
],
"C20": [
"partial",
"Proved for CoM and position tasks after every history; for joint tasks when the most recent model update was accepted. False in general for joint tasks after a rejected model (C20_joint_after_rejection)."
],
"C21": [
"partial",
"False for asymmetric limits: the rows say -v_max <= v <= -v_min (C21_limit_rows), right iff symmetric (C21_only_symmetric), witness C21_asymmetric_violation. Proved for symmetric limits."
],
"C22": [
"proved",
"Feasible set characterised exactly, for every list of components."
],
"C23": [
"proved",
"Equality rows hold iff every hard constraint equation holds; absent iff there is no hard constraint."
],
"C24": [
"proved",
"Symmetry and positive semidefiniteness for nonnegative damping and displacement gains."
],
"C25": [
"proved",
"Exact objective for every component list and velocity."
],
"C26": [
"partial",
"False: the code contributes J'(W'W)J (C26_weight_is_squared, C26_documented_weight_false). Proved for W'W = W."
],
"C27": [
"proved",
"P, c, objective, feasible set and optima are invariant under permutation."
],
"C28": [
"proved",
"Every answer in a control loop of any length equals a from-scratch answer."
],
"C29": [
"proved",
"Any loop of compiled problems containing the barrier, any velocities feasible for the solver's own QP; assumes mjx keeps hinge/slide coordinates (KeepsScalars) and that component sizes fit (WellSized)."
],
"C30": [
"proved",
"Exact geometric decay of every error entry; assumes mjx keeps hinge/slide coordinates."
],
"C31": [
"partial",
"False when a barrier Jacobian vanishes (C31_zero_jacobian); finite in exactly all other cases."
],
"C32": [
"partial",
"False: the flag is never read (C32_active_ignored) and an inactive hard constraint excludes velocities (C32_inactive_still_constrains)."
],
"C33": [
"proved",
"Replacing the soft constraint by the task gives the very same QP."
],
"C34": [
"proved",
"Wrong shape raises ValueError; otherwise solve is solve_from_data on the updated data, for both solvers (global solver: when update keeps the configuration)."
],
"C35": [
"proved",
"All sizes of the QP."
],
"C36": [
"proved",
"Zero is optimal at the goal and every optimum leaves weighted task errors in place."
],
"C37": [
"proved",
""
],
"C38": [
"partial",
"False of the code: the cost never enters the loss (C38_cost_ignored, witness C38_documented_false)."
],
"C39": [
"partial",
"Monotone, strictly between 1e-9 and 1; false for violated barriers, whose penalty is flat (C39_flat_when_violated)."
],
"C40": [
"proved",
"With a constraint the loss is never defined; the error is NotImplementedError when the other components evaluate."
],
"C41": [
"proved",
"For optimisers and gradients that keep the length."
],
"C42": [
"proved",
""
],
"C43": [
"proved",
"Over the reals for the derivative of mjx's quaternion integration."
],
"C44": [
"partial",
"Proved for translations, hinges and slides; for quaternion entries the code's Jacobian is twice the derivative (C44_quaternion_rate_wrong)."
],
"C45": [
"proved",
"A model without joints is refused (jnp.concatenate of nothing)."
],
"C46": [
"partial",
"Size and vanishing proved; the 'same direction' part is false: scalar joints measure q1 - q2, rotations log(q1^-1 q2) (C46_directions_disagree). What the rotations measure is proved: for ball joints the difference is the velocity that reaches q2 in unit time, for free joints the constant body velocity that carries pose 1 to pose 2."
],
"C47": [
"proved",
"Also the converse: degrees of freedom of ancestors contribute the velocity of the point."
],
"C48": [
"proved",
""
],
"C49": [
"partial",
"False: get_transform multiplies dest by source. Proved: what it computes, that it is right for a destination at the world frame, and that it is right only for frames that are their own inverse."
],
"C50": [
"proved",
"For float limits and for arrays with nv entries (an int limit is not broadcast by the code and not covered)."
],
"C51": [
"proved",
"Membership, uniqueness and sortedness for listed bodies and for the default of all bodies; also records that bodies rooted in the world are never checked against world geoms."
],
"C52": [
"proved",
"Same bodies as a set (any order, repetitions) and same exclusions up to order and flipping give a permutation of the same pairs."
],
"C53": [
"proved",
"Grouping and the reported contacts; Python dict order is insertion order. A missing collision function is a KeyError (C53_unknown_types)."
],
"C54": [
"proved",
"Values, safety equivalence for n >= 1, and the error for n larger than the number of contacts."
],
"C55": [
"partial",
"False in general: bodies are taken by list position. The code's behaviour is characterised; C55_sign_wrong is a reachable robot with a negated gradient; the partial theorem covers unregrouped pairs."
],
"C56": [
"partial",
"False: an unknown name is the last body (proved for all models). The partial theorem covers what is refused."
],
"C57": [
"proved",
"For every history whose most recent model update was accepted; assumes the simulator produces as many equality rows as the model has."
],
"C58": [
"proved",
"str.lower is modelled as ASCII lower-casing (see DESIGN.md)."
],
"C59": [
"proved",
"With jaxlie's SE3.log and SO3.from_matrix (all four cases) over exact reals (unit target quaternion, rotation matrices of the object, Taylor threshold at most 3/4): without mask the error is zero exactly when frame and target put every point at the same place; array targets are position then (w,x,y,z)."
],
"C60": [
"partial",
"False for the code: it differentiates log(target^-1 frame^-1 exp) instead of log(target^-1 frame exp). C60_wrong: an arm of length l exactly at its target has error rate -l and Jacobian entry -2l. C60_translation_partial: world orientation of object and target and velocities without rotation. Missing: every other pose, where it is false."
],
"C61": [
"proved",
"For data whose centres of mass follow the CoM task's own update formula (assumed of mjx.com_pos, see DESIGN.md); body 0 is its own root."
],
"C62": [
"partial",
"Ids and viewer slots are proved for every history. In recordings the claim is false: markers overwrite the last model geometries (C62_recording_replaces_model). Re-using a name leaves a gap (C62_reused_name_gap)."
],
"C63": [
"proved",
"The nine numbers form a rotation matrix that acts as the quaternion; other shapes are refused or passed on."
],
"C64": [
"partial",
"The claim is false for more than one marker with two colours: the interpolation runs backwards (C64_reversed, C64_first_is_end). It holds with one colour."
],
"C65": [
"proved",
"Proved for every tree of distinct elements; nothing but the first worldbody is changed."
],
"C66": [
"proved",
"Proved for every stem, hash and extension; C66_without_dash shows what happens to names without a dash."
],
"C67": [
"proved",
"For every program, every list of assignments in the with block and every leaf. `mt` is the tree of an mjx.Model, external; its entries must have distinct names."
],
"C68": [
"partial",
"For every class and every history without a half-way failed model update: value, Jacobian, gain, cost sizes agree with dim and nv, and any compiled problem is well sized (C68_problem_partial, over whole user programs). Missing: unchecked settings - number of pairs changed after the model update and joint-barrier limits given to the constructor - where the property is false (C68_wrong, C68_pairs_changed)."
],
"C69": [
"proved",
"One step and all steps of plain gradient descent (optax.sgd) with the exact gradient, on one compiled joint task; assumption on mjx: KeepsScalars."
],
"C70": [
"partial",
"False: for any differentiable loss that mjx's normalisation makes independent of the norm, every gradient descent step that changes a quaternion makes its norm larger than one (C70_norm_grows), with a concrete problem (C70_wrong). Holds for a joint task, which leaves the quaternions alone."
],
"C71": [
"proved",
"Size, unit quaternions, zero velocity or time, and the semigroup law of integrate, for all joint types; sin and cos of the reals."
],
"C72": [
"proved",
"Success and failure are both characterised."
],
"C73": [
"proved",
"Names, order and collision settings; a class index must exist (ClassesWF)."
],
"C74": [
"partial",
"False for geometries that share the colour of a class (C74_shared_class_wrong gives the exact opacity). Proved for own colours, class colours used once, and materials."
],
"C75": [
"proved",
"Names, prefixes, lights and cameras."
],
"C76": [
"proved",
"One update and every history."
],
"C77": [
"proved",
"Kept for every later sequence of array-setting calls; necessity per component with all assignments that do not replace the whole component; damping as an instance."
],
"C78": [
"partial",
"False for rotations of free and ball joints (C78_wrong; exact form C78_rate, C78_iff); proved for velocities without angular part, so for all hinge and slide robots. Assumes jacrev is exact (met by jacrevR); for robots simulated by mjx's formulas nothing else is assumed (C78_robot, C78_robot_partial)."
],
"C79": [
"proved",
"For every program and every accepted sequence of batched target updates; the axes are the ones C67 describes. `mt` is the tree of an mjx.Model, external."
],
"C80": [
"proved",
"One theorem per setting; C80_compiled for the compiled component."
],
"C81": [
"proved",
"Existence over the reals; feasibility over any ordered field."
],
"C82": [
"proved",
"C82_needs_curvature shows that without components every feasible velocity is optimal."
],
"C83": [
"proved",
""
],
"C84": [
"proved",
""
],
"C85": [
"proved",
"C85_negative_damping: the hypothesis on damping is needed, and the damping setter does not check it."
],
"C86": [
"proved",
""
],
"C87": [
"partial",
"Settings nothing checks are hypotheses (Usable: unbatched targets and limits, fitting joint limits, body/geom/site objects, at least one collision pair, no more distances than pairs, types the simulator can collide), as are sizes of simulator outputs; C87_no_pairs, C54_too_many and C87_unknown_types show where it fails."
],
"C88": [
"partial",
"Joint barriers and joint tasks: proved for all histories. Position barriers, position and centre-of-mass tasks: proved for velocities without rotations of free and ball joints; false with them (C88_wrong). Assumes jacrev is exact; C88_robot_* need no differentiability hypothesis, for robots simulated by mjx's formulas."
],
"C89": [
"proved",
"Constructors (C89_new, an iff over all argument shapes), setters after any history (C89_setter), model binding for centre of mass tasks, joint tasks, joint barriers and equality constraints (C89_bind_*; objects: C19_missing_object_refused; self-collision: C51, C56), problem creation (C89_new_problem; limit updates: C06_update), and the reported dimension of fixed-axes components (C89_dim). Arguments are arrays with a shape; other Python types are not modelled."
],
"C90": [
"partial",
"False for masks with more entries than axes (entry 3 reads axis 2, jax clamps) and for object types other than body, geometry and site (their id indexes bodies); both negations proved. Proved for bodies, geometries and sites with masks of the right length or none; for tasks after histories whose most recent model change was accepted (C19 says what happens otherwise). CoM tasks: any history."
],
"C91": [
"proved",
"For every program and every configuration at which sizes fit. Velocity limits enter as the code uses them, the box from -v_max to -v_min (C21). The QP solver is assumed exact."
],
"C92": [
"proved",
"ReadingsOf lists the components of the problem with their attributes and values; the hypothesis that values have the declared sizes is C68."
],
"C93": [
"proved",
"Spec/Loop defines control programs. Sizes must fit at every control step (C68), no model update may be refused half way (C17 shows what happens then), and the barrier is bound to the model of the problem. The limits fit the number of joints."
],
"C94": [
"proved",
"Control programs as in C93. C94_converges: geometric decay with the exact factor under compatibility at every control step; C94_task_and_limits derives compatibility from the attributes of the components. The QP solver is assumed exact (returns an optimum when there is one)."
],
"C95": [
"proved",
"Histories of marker calls, updates, saves and closes. mediapy.write_video is assumed to refuse an empty list and to replace a file of the same name; a closed renderer refuses update_scene."
],
"C96": [
"proved",
"Spec/Approx. C96_control_problem: tolerances of rows and objectives in terms of the components; C96_joint_limits, C96_converges: bounds for control programs of any length; C96_task_and_limits: both bounds from the attributes of the components alone. Hypotheses otherwise as in C93 and C94; 0 < gain and gain * dt <= 1."
],
"C97": [
"proved",
"Spec/History. C97_component and C97_all: the heap refines to independent objects with their own histories; C97_gain, C97_problem: what the gain and the velocity limits are after any program, read off the program text."
],
"C98": [
"proved",
"Spec/Sampled. C98_position_limits: induction over control programs; the example in Props/SampledEx is a crane with a trolley and a hinged arm under a program of API calls and control steps. C98_robot: for arms with hinges (possibly on rails) in the modelled simulator, the acceleration bound is computed from link lengths and velocity limits (Spec/Reach), example in Props/RobotSampledEx. Robots with hinge and slide joints, as the property says."
],
"C99": [
"proved",
"Spec/Sampled. C99_converges: position tasks for bodies, geoms and sites and centre-of-mass tasks; example in Props/SampledEx. C99_robot: the same for arms with hinges (possibly on rails) in the modelled simulator, with the acceleration bound computed from link lengths and velocity limits (Spec/Reach), example in Props/RobotSampledEx. Robots with hinge and slide joints, as the property says."
]
}