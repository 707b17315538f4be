{
 "claims": [
  {
   "property": "C01",
   "status": "proved",
   "theorems": [
    "Mjinx.Props.C01_compiled_matches_settings",
    "Mjinx.Props.C01_caching_invisible",
    "Mjinx.Props.C01_problem_compile"
   ],
   "note": "All programs over all components and problems; compiled value is a function of the current settings, and equals what a cache-free implementation would produce."
  },
  {
   "property": "C02",
   "status": "proved",
   "theorems": [
    "Mjinx.Props.C02_compile_twice"
   ],
   "note": "Second compile returns the same result and every observable attribute is unchanged."
  },
  {
   "property": "C03",
   "status": "proved",
   "theorems": [
    "Mjinx.Props.C03_insertion_order",
    "Mjinx.Props.C03_lookup",
    "Mjinx.Props.C03_names_distinct"
   ],
   "note": "Insertion order, last-add lookup and distinct names over all programs."
  },
  {
   "property": "C04",
   "status": "proved",
   "theorems": [
    "Mjinx.Props.C04_refused_add",
    "Mjinx.Props.C04_duplicate_name"
   ],
   "note": "A refused add leaves every problem as it was; a duplicate name leaves the component as it was too."
  },
  {
   "property": "C05",
   "status": "proved",
   "theorems": [
    "Mjinx.Props.C05_task_lookup",
    "Mjinx.Props.C05_barrier_lookup"
   ],
   "note": "Both directions for task() and barrier(), over all reachable worlds."
  },
  {
   "property": "C06",
   "status": "proved",
   "theorems": [
    "Mjinx.Props.C06_limits_shape",
    "Mjinx.Props.C06_update"
   ],
   "note": "Shape invariant over all programs and exact effect of each update."
  },
  {
   "property": "C07",
   "status": "partial",
   "theorems": [
    "Mjinx.Props.C07_shared_component_rebound",
    "Mjinx.Props.C07_compiled_model_partial"
   ],
   "note": "False when a component is shared between problems with different models (C07_shared_component_rebound); proved for programs where each component meets one model."
  },
  {
   "property": "C08",
   "status": "proved",
   "theorems": [
    "Mjinx.Props.C08_rejected_setter"
   ],
   "note": "Every setter of every component kind: a refused call leaves every observable attribute and the compiled value as they were."
  },
  {
   "property": "C09",
   "status": "partial",
   "theorems": [
    "Mjinx.Props.C09_rejected_model_changes_task",
    "Mjinx.Props.C09_rejected_model_changes_joint_task",
    "Mjinx.Props.C09_rejected_model_keeps_settings_partial"
   ],
   "note": "False in general: a refused model change half-updates tasks (C09_rejected_model_changes_task, C09_rejected_model_changes_joint_task). Proved: the user's own settings are kept."
  },
  {
   "property": "C10",
   "status": "proved",
   "theorems": [
    "Mjinx.Props.C10_gain_expansion",
    "Mjinx.Props.C10_gain_rank"
   ],
   "note": "Exact expansion for ranks 0 and 1, refusal of every other shape."
  },
  {
   "property": "C11",
   "status": "proved",
   "theorems": [
    "Mjinx.Props.C11_cost_expansion",
    "Mjinx.Props.C11_soft_cost"
   ],
   "note": "Exact expansion for ranks 0, 1 and 2 for tasks, and for soft constraint costs."
  },
  {
   "property": "C12",
   "status": "partial",
   "theorems": [
    "Mjinx.Props.C12_mask_agrees_partial",
    "Mjinx.Props.C12_mask_agrees_joint_partial",
    "Mjinx.Props.C12_equality_mask_stale",
    "Mjinx.Props.C12_joint_mask_stale_after_rejection",
    "Mjinx.Props.C12_self_collision_mask_stale",
    "Mjinx.Props.C12_default_selects_all"
   ],
   "note": "False for equality and self-collision components, and for joint components after a refused model change (C12_*_stale*). Proved for the remaining kinds over all histories."
  },
  {
   "property": "C13",
   "status": "proved",
   "theorems": [
    "Mjinx.Props.C13_task_coordinates",
    "Mjinx.Props.C13_barrier_coordinates",
    "Mjinx.Props.C13_wrong_length_refused"
   ],
   "note": "For every history without a rejected model update: value entry i reads the configuration coordinate and Jacobian row i selects the velocity coordinate of the i-th selected scalar joint (tasks and barriers); masks of the wrong length are refused."
  },
  {
   "property": "C14",
   "status": "proved",
   "theorems": [
    "Mjinx.Props.C14_exact_derivative"
   ],
   "note": "Exact difference along integrate for every velocity and time step; assumes mjx kinematics keeps hinge/slide coordinates (KeepsScalars), unbatched target."
  },
  {
   "property": "C15",
   "status": "proved",
   "theorems": [
    "Mjinx.Props.C15_compiled_shapes"
   ],
   "note": "Shapes of gain, cost and mask of every compiled component."
  },
  {
   "property": "C16",
   "status": "proved",
   "theorems": [
    "Mjinx.Props.C16_nonneg_iff_within",
    "Mjinx.Props.C16_default_limits"
   ],
   "note": "Componentwise nonnegative iff within limits; default limits are the model ranges of the selected joints whenever the model is accepted."
  },
  {
   "property": "C17",
   "status": "partial",
   "theorems": [
    "Mjinx.Props.C17_masked_default_refused",
    "Mjinx.Props.C17_default_limits_partial"
   ],
   "note": "False as stated: a mask that drops any joint makes the model update raise (C17_masked_default_refused). Proved for masks that drop no joint."
  },
  {
   "property": "C18",
   "status": "proved",
   "theorems": [
    "Mjinx.Props.C18_nonneg_iff_within",
    "Mjinx.Props.C18_excluded_ignored",
    "Mjinx.Props.C18_included_stored",
    "Mjinx.Props.C18_initial_bounds"
   ],
   "note": "For every limit type, length-3 (or absent) mask and every history of calls. Bounds with more than one axis are outside (they cannot be used without vmap)."
  },
  {
   "property": "C19",
   "status": "partial",
   "theorems": [
    "Mjinx.Props.C19_barrier_object",
    "Mjinx.Props.C19_missing_object_refused",
    "Mjinx.Props.C19_never_bound",
    "Mjinx.Props.C19_task_object_partial",
    "Mjinx.Props.C19_task_after_rejection"
   ],
   "note": "Proved for barriers after every history and for refusal/acceptance of models; for tasks proved when the most recent model update was accepted (C19_task_object_partial). False in general for tasks: after a rejected model the task still compiles with id -1 (C19_task_after_rejection)."
  },
  {
   "property": "C20",
   "status": "partial",
   "theorems": [
    "Mjinx.Props.C20_frame_target_fits",
    "Mjinx.Props.C20_frame_update",
    "Mjinx.Props.C20_target_fits",
    "Mjinx.Props.C20_update",
    "Mjinx.Props.C20_joint_target_fits_partial",
    "Mjinx.Props.C20_joint_after_rejection"
   ],
   "note": "Proved for CoM and position tasks after every history; for joint tasks when the most recent model update was accepted. False in general for joint tasks after a rejected model (C20_joint_after_rejection)."
  },
  {
   "property": "C21",
   "status": "partial",
   "theorems": [
    "Mjinx.Props.C21_limit_rows",
    "Mjinx.Props.C21_only_symmetric",
    "Mjinx.Props.C21_asymmetric_violation",
    "Mjinx.Props.C21_velocity_limits_partial"
   ],
   "note": "False for asymmetric limits: the rows say -v_max <= v <= -v_min (C21_limit_rows), right iff symmetric (C21_only_symmetric), witness C21_asymmetric_violation. Proved for symmetric limits."
  },
  {
   "property": "C22",
   "status": "proved",
   "theorems": [
    "Mjinx.Props.C22_barrier_rows"
   ],
   "note": "Feasible set characterised exactly, for every list of components."
  },
  {
   "property": "C23",
   "status": "proved",
   "theorems": [
    "Mjinx.Props.C23_hard_constraints"
   ],
   "note": "Equality rows hold iff every hard constraint equation holds; absent iff there is no hard constraint."
  },
  {
   "property": "C24",
   "status": "proved",
   "theorems": [
    "Mjinx.Props.C24_convex"
   ],
   "note": "Symmetry and positive semidefiniteness for nonnegative damping and displacement gains."
  },
  {
   "property": "C25",
   "status": "proved",
   "theorems": [
    "Mjinx.Props.C25_objective"
   ],
   "note": "Exact objective for every component list and velocity."
  },
  {
   "property": "C26",
   "status": "partial",
   "theorems": [
    "Mjinx.Props.C26_weight_is_squared",
    "Mjinx.Props.C26_documented_weight_false",
    "Mjinx.Props.C26_documented_weight_partial"
   ],
   "note": "False: the code contributes J'(W'W)J (C26_weight_is_squared, C26_documented_weight_false). Proved for W'W = W."
  },
  {
   "property": "C27",
   "status": "proved",
   "theorems": [
    "Mjinx.Props.C27_order"
   ],
   "note": "P, c, objective, feasible set and optima are invariant under permutation."
  },
  {
   "property": "C28",
   "status": "proved",
   "theorems": [
    "Mjinx.Props.C28_no_history"
   ],
   "note": "Every answer in a control loop of any length equals a from-scratch answer."
  },
  {
   "property": "C29",
   "status": "proved",
   "theorems": [
    "Mjinx.Props.C29_joint_limits_invariant"
   ],
   "note": "Any loop of compiled problems containing the barrier, any velocities feasible for the solver's own QP; assumes mjx keeps hinge/slide coordinates (KeepsScalars) and that component sizes fit (WellSized)."
  },
  {
   "property": "C30",
   "status": "proved",
   "theorems": [
    "Mjinx.Props.C30_geometric"
   ],
   "note": "Exact geometric decay of every error entry; assumes mjx keeps hinge/slide coordinates."
  },
  {
   "property": "C31",
   "status": "partial",
   "theorems": [
    "Mjinx.Props.C31_finite_partial",
    "Mjinx.Props.C31_zero_jacobian"
   ],
   "note": "False when a barrier Jacobian vanishes (C31_zero_jacobian); finite in exactly all other cases."
  },
  {
   "property": "C32",
   "status": "partial",
   "theorems": [
    "Mjinx.Props.C32_active_ignored",
    "Mjinx.Props.C32_inactive_still_constrains"
   ],
   "note": "False: the flag is never read (C32_active_ignored) and an inactive hard constraint excludes velocities (C32_inactive_still_constrains)."
  },
  {
   "property": "C33",
   "status": "proved",
   "theorems": [
    "Mjinx.Props.C33_soft_constraint_is_task"
   ],
   "note": "Replacing the soft constraint by the task gives the very same QP."
  },
  {
   "property": "C34",
   "status": "proved",
   "theorems": [
    "Mjinx.Props.C34_solve",
    "Mjinx.Props.C34_init",
    "Mjinx.Props.C34_global_solve",
    "Mjinx.Props.C34_global_init"
   ],
   "note": "Wrong shape raises ValueError; otherwise solve is solve_from_data on the updated data, for both solvers (global solver: when update keeps the configuration)."
  },
  {
   "property": "C35",
   "status": "proved",
   "theorems": [
    "Mjinx.Props.C35_qp_shapes"
   ],
   "note": "All sizes of the QP."
  },
  {
   "property": "C36",
   "status": "proved",
   "theorems": [
    "Mjinx.Props.C36_standing_still"
   ],
   "note": "Zero is optimal at the goal and every optimum leaves weighted task errors in place."
  },
  {
   "property": "C37",
   "status": "proved",
   "theorems": [
    "Mjinx.Props.C37_loss",
    "Mjinx.Props.C37_classes"
   ],
   "note": ""
  },
  {
   "property": "C38",
   "status": "partial",
   "theorems": [
    "Mjinx.Props.C38_cost_ignored",
    "Mjinx.Props.C38_documented_false"
   ],
   "note": "False of the code: the cost never enters the loss (C38_cost_ignored, witness C38_documented_false)."
  },
  {
   "property": "C39",
   "status": "partial",
   "theorems": [
    "Mjinx.Props.C39_penalty_monotone_partial",
    "Mjinx.Props.C39_flat_when_violated"
   ],
   "note": "Monotone, strictly between 1e-9 and 1; false for violated barriers, whose penalty is flat (C39_flat_when_violated)."
  },
  {
   "property": "C40",
   "status": "proved",
   "theorems": [
    "Mjinx.Props.C40_constraint_refused",
    "Mjinx.Props.C40_only_constraints"
   ],
   "note": "With a constraint the loss is never defined; the error is NotImplementedError when the other components evaluate."
  },
  {
   "property": "C41",
   "status": "proved",
   "theorems": [
    "Mjinx.Props.C41_velocity",
    "Mjinx.Props.C41_limits_ignored"
   ],
   "note": "For optimisers and gradients that keep the length."
  },
  {
   "property": "C42",
   "status": "proved",
   "theorems": [
    "Mjinx.Props.C42_cross",
    "Mjinx.Props.C42_antisymmetric"
   ],
   "note": ""
  },
  {
   "property": "C43",
   "status": "proved",
   "theorems": [
    "Mjinx.Props.C43_product",
    "Mjinx.Props.C43_orthonormal",
    "Mjinx.Props.C43_orthogonal",
    "Mjinx.Props.C43_derivative"
   ],
   "note": "Over the reals for the derivative of mjx's quaternion integration."
  },
  {
   "property": "C44",
   "status": "partial",
   "theorems": [
    "Mjinx.Props.C44_derivative_partial",
    "Mjinx.Props.C44_quaternion_rate_wrong"
   ],
   "note": "Proved for translations, hinges and slides; for quaternion entries the code's Jacobian is twice the derivative (C44_quaternion_rate_wrong)."
  },
  {
   "property": "C45",
   "status": "proved",
   "theorems": [
    "Mjinx.Props.C45_size",
    "Mjinx.Props.C45_zero_coordinates",
    "Mjinx.Props.C45_identity_quaternions",
    "Mjinx.Props.C45_no_joints"
   ],
   "note": "A model without joints is refused (jnp.concatenate of nothing)."
  },
  {
   "property": "C46",
   "status": "partial",
   "theorems": [
    "Mjinx.Props.C46_ball_partial",
    "Mjinx.Props.C46_free_partial",
    "Mjinx.Props.C46_size",
    "Mjinx.Props.C46_vanishes",
    "Mjinx.Props.C46_scalar",
    "Mjinx.Props.C46_directions_disagree"
   ],
   "note": "Size and vanishing proved; the 'same direction' part is false: scalar joints measure q1 - q2, rotations log(q1^-1 q2) (C46_directions_disagree). What the rotations measure is proved: for ball joints the difference is the velocity that reaches q2 in unit time, for free joints the constant body velocity that carries pose 1 to pose 2."
  },
  {
   "property": "C47",
   "status": "proved",
   "theorems": [
    "Mjinx.Props.C47_frame_jacobian",
    "Mjinx.Props.C47_ancestors_contribute",
    "Mjinx.Props.C47_point_jacobian"
   ],
   "note": "Also the converse: degrees of freedom of ancestors contribute the velocity of the point."
  },
  {
   "property": "C48",
   "status": "proved",
   "theorems": [
    "Mjinx.Props.C48_local_is_rotated",
    "Mjinx.Props.C48_recover",
    "Mjinx.Props.C48_norms"
   ],
   "note": ""
  },
  {
   "property": "C49",
   "status": "partial",
   "theorems": [
    "Mjinx.Props.C49_frame_to_world",
    "Mjinx.Props.C49_actual",
    "Mjinx.Props.C49_world_partial",
    "Mjinx.Props.C49_only_involutions"
   ],
   "note": "False: get_transform multiplies dest by source. Proved: what it computes, that it is right for a destination at the world frame, and that it is right only for frames that are their own inverse."
  },
  {
   "property": "C50",
   "status": "proved",
   "theorems": [
    "Mjinx.Props.C50_array_limit",
    "Mjinx.Props.C50_float_limit",
    "Mjinx.Props.C50_defined"
   ],
   "note": "For float limits and for arrays with nv entries (an int limit is not broadcast by the code and not covered)."
  },
  {
   "property": "C51",
   "status": "proved",
   "theorems": [
    "Mjinx.Props.C51_listed_bodies",
    "Mjinx.Props.C51_all_bodies",
    "Mjinx.Props.C51_sorted",
    "Mjinx.Props.C51_root_bodies_ignore_world"
   ],
   "note": "Membership, uniqueness and sortedness for listed bodies and for the default of all bodies; also records that bodies rooted in the world are never checked against world geoms."
  },
  {
   "property": "C52",
   "status": "proved",
   "theorems": [
    "Mjinx.Props.C52_order_irrelevant"
   ],
   "note": "Same bodies as a set (any order, repetitions) and same exclusions up to order and flipping give a permutation of the same pairs."
  },
  {
   "property": "C53",
   "status": "proved",
   "theorems": [
    "Mjinx.Props.C53_groups",
    "Mjinx.Props.C53_contacts",
    "Mjinx.Props.C53_unknown_types"
   ],
   "note": "Grouping and the reported contacts; Python dict order is insertion order. A missing collision function is a KeyError (C53_unknown_types)."
  },
  {
   "property": "C54",
   "status": "proved",
   "theorems": [
    "Mjinx.Props.C54_values",
    "Mjinx.Props.C54_safe",
    "Mjinx.Props.C54_too_many"
   ],
   "note": "Values, safety equivalence for n >= 1, and the error for n larger than the number of contacts."
  },
  {
   "property": "C55",
   "status": "partial",
   "theorems": [
    "Mjinx.Props.C55_bodies_by_position",
    "Mjinx.Props.C55_uniform_partial",
    "Mjinx.Props.C55_flipped_pair",
    "Mjinx.Props.C55_sign_wrong"
   ],
   "note": "False in general: bodies are taken by list position. The code's behaviour is characterised; C55_sign_wrong is a reachable robot with a negated gradient; the partial theorem covers unregrouped pairs."
  },
  {
   "property": "C56",
   "status": "partial",
   "theorems": [
    "Mjinx.Props.C56_unknown_is_last",
    "Mjinx.Props.C56_unknown_accepted",
    "Mjinx.Props.C56_refused_partial"
   ],
   "note": "False: an unknown name is the last body (proved for all models). The partial theorem covers what is refused."
  },
  {
   "property": "C57",
   "status": "proved",
   "theorems": [
    "Mjinx.Props.C57_size",
    "Mjinx.Props.C57_unsupported_refused",
    "Mjinx.Props.C57_rows"
   ],
   "note": "For every history whose most recent model update was accepted; assumes the simulator produces as many equality rows as the model has."
  },
  {
   "property": "C58",
   "status": "proved",
   "theorems": [
    "Mjinx.Props.C58_from_str",
    "Mjinx.Props.C58_includes",
    "Mjinx.Props.C58_constructor_lower_case"
   ],
   "note": "str.lower is modelled as ASCII lower-casing (see DESIGN.md)."
  },
  {
   "property": "C59",
   "status": "proved",
   "theorems": [
    "Mjinx.Props.C59_zero_iff_target",
    "Mjinx.Props.C59_array_order",
    "Mjinx.Props.C59_named_object"
   ],
   "note": "With jaxlie's SE3.log and SO3.from_matrix (all four cases) over exact reals (unit target quaternion, rotation matrices of the object, Taylor threshold at most 3/4): without mask the error is zero exactly when frame and target put every point at the same place; array targets are position then (w,x,y,z)."
  },
  {
   "property": "C60",
   "status": "partial",
   "theorems": [
    "Mjinx.Props.C60_library_exp",
    "Mjinx.Props.C60_translation_partial",
    "Mjinx.Props.C60_wrong"
   ],
   "note": "False for the code: it differentiates log(target^-1 frame^-1 exp) instead of log(target^-1 frame exp). C60_wrong: an arm of length l exactly at its target has error rate -l and Jacobian entry -2l. C60_translation_partial: world orientation of object and target and velocities without rotation. Missing: every other pose, where it is false."
  },
  {
   "property": "C61",
   "status": "proved",
   "theorems": [
    "Mjinx.Props.C61_subtrees",
    "Mjinx.Props.C61_com_error",
    "Mjinx.Props.C61_com_differentiated"
   ],
   "note": "For data whose centres of mass follow the CoM task's own update formula (assumed of mjx.com_pos, see DESIGN.md); body 0 is its own root."
  },
  {
   "property": "C62",
   "status": "partial",
   "theorems": [
    "Mjinx.Props.C62_recording_loses_markers",
    "Mjinx.Props.C62_consecutive",
    "Mjinx.Props.C62_unique",
    "Mjinx.Props.C62_viewer_slots",
    "Mjinx.Props.C62_refuses",
    "Mjinx.Props.C62_recording_replaces_model",
    "Mjinx.Props.C62_reused_name_gap"
   ],
   "note": "Ids and viewer slots are proved for every history. In recordings the claim is false: markers overwrite the last model geometries (C62_recording_replaces_model). Re-using a name leaves a gap (C62_reused_name_gap)."
  },
  {
   "property": "C63",
   "status": "proved",
   "theorems": [
    "Mjinx.Props.C63_rotation",
    "Mjinx.Props.C63_shapes"
   ],
   "note": "The nine numbers form a rotation matrix that acts as the quaternion; other shapes are refused or passed on."
  },
  {
   "property": "C64",
   "status": "partial",
   "theorems": [
    "Mjinx.Props.C64_reversed",
    "Mjinx.Props.C64_first_is_end",
    "Mjinx.Props.C64_single_color_partial"
   ],
   "note": "The claim is false for more than one marker with two colours: the interpolation runs backwards (C64_reversed, C64_first_is_end). It holds with one colour."
  },
  {
   "property": "C65",
   "status": "proved",
   "theorems": [
    "Mjinx.Props.C65_worldbody",
    "Mjinx.Props.C65_document",
    "Mjinx.Props.C65_no_worldbody",
    "Mjinx.Props.C65_members"
   ],
   "note": "Proved for every tree of distinct elements; nothing but the first worldbody is changed."
  },
  {
   "property": "C66",
   "status": "proved",
   "theorems": [
    "Mjinx.Props.C66_restored",
    "Mjinx.Props.C66_without_dash"
   ],
   "note": "Proved for every stem, hash and extension; C66_without_dash shows what happens to names without a dash."
  },
  {
   "property": "C67",
   "status": "proved",
   "theorems": [
    "Mjinx.Props.C67_axes",
    "Mjinx.Props.C67_assignable",
    "Mjinx.Props.C67_leaves",
    "Mjinx.Props.C67_target_path"
   ],
   "note": "For every program, every list of assignments in the with block and every leaf. `mt` is the tree of an mjx.Model, external; its entries must have distinct names."
  },
  {
   "property": "C68",
   "status": "partial",
   "theorems": [
    "Mjinx.Props.C68_value_partial",
    "Mjinx.Props.C68_jacobian_partial",
    "Mjinx.Props.C68_gain",
    "Mjinx.Props.C68_component_partial",
    "Mjinx.Props.C68_problem_partial",
    "Mjinx.Props.C68_pairs_changed",
    "Mjinx.Props.C68_wrong"
   ],
   "note": "For every class and every history without a half-way failed model update: value, Jacobian, gain, cost sizes agree with dim and nv, and any compiled problem is well sized (C68_problem_partial, over whole user programs). Missing: unchecked settings - number of pairs changed after the model update and joint-barrier limits given to the constructor - where the property is false (C68_wrong, C68_pairs_changed)."
  },
  {
   "property": "C69",
   "status": "proved",
   "theorems": [
    "Mjinx.Props.C69_step",
    "Mjinx.Props.C69_converges"
   ],
   "note": "One step and all steps of plain gradient descent (optax.sgd) with the exact gradient, on one compiled joint task; assumption on mjx: KeepsScalars."
  },
  {
   "property": "C70",
   "status": "partial",
   "theorems": [
    "Mjinx.Props.C70_joint_task_partial",
    "Mjinx.Props.C70_norm_grows",
    "Mjinx.Props.C70_wrong"
   ],
   "note": "False: for any differentiable loss that mjx's normalisation makes independent of the norm, every gradient descent step that changes a quaternion makes its norm larger than one (C70_norm_grows), with a concrete problem (C70_wrong). Holds for a joint task, which leaves the quaternions alone."
  },
  {
   "property": "C71",
   "status": "proved",
   "theorems": [
    "Mjinx.Props.C71_size",
    "Mjinx.Props.C71_unit",
    "Mjinx.Props.C71_rest",
    "Mjinx.Props.C71_two_steps"
   ],
   "note": "Size, unit quaternions, zero velocity or time, and the semigroup law of integrate, for all joint types; sin and cos of the reals."
  },
  {
   "property": "C72",
   "status": "proved",
   "theorems": [
    "Mjinx.Props.C72_assets",
    "Mjinx.Props.C72_missing"
   ],
   "note": "Success and failure are both characterised."
  },
  {
   "property": "C73",
   "status": "proved",
   "theorems": [
    "Mjinx.Props.C73_geoms"
   ],
   "note": "Names, order and collision settings; a class index must exist (ClassesWF)."
  },
  {
   "property": "C74",
   "status": "partial",
   "theorems": [
    "Mjinx.Props.C74_class_power",
    "Mjinx.Props.C74_opacity_partial",
    "Mjinx.Props.C74_shared_class_wrong",
    "Mjinx.Props.C74_materials"
   ],
   "note": "False for geometries that share the colour of a class (C74_shared_class_wrong gives the exact opacity). Proved for own colours, class colours used once, and materials."
  },
  {
   "property": "C75",
   "status": "proved",
   "theorems": [
    "Mjinx.Props.C75_names_distinct",
    "Mjinx.Props.C75_lights",
    "Mjinx.Props.C75_prefix_injective"
   ],
   "note": "Names, prefixes, lights and cameras."
  },
  {
   "property": "C76",
   "status": "proved",
   "theorems": [
    "Mjinx.Props.C76_update",
    "Mjinx.Props.C76_frames"
   ],
   "note": "One update and every history."
  },
  {
   "property": "C77",
   "status": "proved",
   "theorems": [
    "Mjinx.Props.C77_structure_kept",
    "Mjinx.Props.C77_needs_same_static",
    "Mjinx.Props.C77_damping"
   ],
   "note": "Kept for every later sequence of array-setting calls; necessity per component with all assignments that do not replace the whole component; damping as an instance."
  },
  {
   "property": "C78",
   "status": "partial",
   "theorems": [
    "Mjinx.Props.C78_rate",
    "Mjinx.Props.C78_iff",
    "Mjinx.Props.C78_rate_partial",
    "Mjinx.Props.C78_wrong",
    "Mjinx.Props.C78_robot",
    "Mjinx.Props.C78_robot_partial"
   ],
   "note": "False for rotations of free and ball joints (C78_wrong; exact form C78_rate, C78_iff); proved for velocities without angular part, so for all hinge and slide robots. Assumes jacrev is exact (met by jacrevR); for robots simulated by mjx's formulas nothing else is assumed (C78_robot, C78_robot_partial)."
  },
  {
   "property": "C79",
   "status": "proved",
   "theorems": [
    "Mjinx.Props.C79_batch"
   ],
   "note": "For every program and every accepted sequence of batched target updates; the axes are the ones C67 describes. `mt` is the tree of an mjx.Model, external."
  },
  {
   "property": "C80",
   "status": "proved",
   "theorems": [
    "Mjinx.Props.C80_gain",
    "Mjinx.Props.C80_cost",
    "Mjinx.Props.C80_safe_displacement_gain",
    "Mjinx.Props.C80_target",
    "Mjinx.Props.C80_target_frame",
    "Mjinx.Props.C80_constraint",
    "Mjinx.Props.C80_self_collision",
    "Mjinx.Props.C80_joint_target",
    "Mjinx.Props.C80_joint_limits",
    "Mjinx.Props.C80_position_limits",
    "Mjinx.Props.C80_compiled"
   ],
   "note": "One theorem per setting; C80_compiled for the compiled component."
  },
  {
   "property": "C81",
   "status": "proved",
   "theorems": [
    "Mjinx.Props.C81_safe_feasible",
    "Mjinx.Props.C81_optimal_exists",
    "Mjinx.Props.C81_safe_solution"
   ],
   "note": "Existence over the reals; feasibility over any ordered field."
  },
  {
   "property": "C82",
   "status": "proved",
   "theorems": [
    "Mjinx.Props.C82_unique",
    "Mjinx.Props.C82_same_rates",
    "Mjinx.Props.C82_needs_curvature"
   ],
   "note": "C82_needs_curvature shows that without components every feasible velocity is optimal."
  },
  {
   "property": "C83",
   "status": "proved",
   "theorems": [
    "Mjinx.Props.C83_compatible_tasks",
    "Mjinx.Props.C83_task_rate"
   ],
   "note": ""
  },
  {
   "property": "C84",
   "status": "proved",
   "theorems": [
    "Mjinx.Props.C84_relative_costs"
   ],
   "note": ""
  },
  {
   "property": "C85",
   "status": "proved",
   "theorems": [
    "Mjinx.Props.C85_kkt_optimal",
    "Mjinx.Props.C85_negative_damping"
   ],
   "note": "C85_negative_damping: the hypothesis on damping is needed, and the damping setter does not check it."
  },
  {
   "property": "C86",
   "status": "proved",
   "theorems": [
    "Mjinx.Props.C86_additive",
    "Mjinx.Props.C86_zero_cost",
    "Mjinx.Props.C86_monotone"
   ],
   "note": ""
  },
  {
   "property": "C87",
   "status": "partial",
   "theorems": [
    "Mjinx.Props.C87_component_partial",
    "Mjinx.Props.C87_problem_partial",
    "Mjinx.Props.C87_solve_partial",
    "Mjinx.Props.C87_no_pairs",
    "Mjinx.Props.C87_unknown_types",
    "Mjinx.Props.C87_no_pairs_compiles"
   ],
   "note": "Settings nothing checks are hypotheses (Usable: unbatched targets and limits, fitting joint limits, body/geom/site objects, at least one collision pair, no more distances than pairs, types the simulator can collide), as are sizes of simulator outputs; C87_no_pairs, C54_too_many and C87_unknown_types show where it fails."
  },
  {
   "property": "C88",
   "status": "partial",
   "theorems": [
    "Mjinx.Props.C88_safe_partial",
    "Mjinx.Props.C88_rate_partial",
    "Mjinx.Props.C88_task_partial",
    "Mjinx.Props.C88_joint_limits",
    "Mjinx.Props.C88_joint_task",
    "Mjinx.Props.C88_wrong",
    "Mjinx.Props.C88_robot_safe_partial",
    "Mjinx.Props.C88_robot_rate_partial",
    "Mjinx.Props.C88_robot_task_partial"
   ],
   "note": "Joint barriers and joint tasks: proved for all histories. Position barriers, position and centre-of-mass tasks: proved for velocities without rotations of free and ball joints; false with them (C88_wrong). Assumes jacrev is exact; C88_robot_* need no differentiability hypothesis, for robots simulated by mjx's formulas."
  },
  {
   "property": "C89",
   "status": "proved",
   "theorems": [
    "Mjinx.Props.C89_new",
    "Mjinx.Props.C89_setter",
    "Mjinx.Props.C89_bind_com",
    "Mjinx.Props.C89_bind_joint_task",
    "Mjinx.Props.C89_bind_joint_barrier",
    "Mjinx.Props.C89_bind_equality",
    "Mjinx.Props.C89_new_problem",
    "Mjinx.Props.C89_dim"
   ],
   "note": "Constructors (C89_new, an iff over all argument shapes), setters after any history (C89_setter), model binding for centre of mass tasks, joint tasks, joint barriers and equality constraints (C89_bind_*; objects: C19_missing_object_refused; self-collision: C51, C56), problem creation (C89_new_problem; limit updates: C06_update), and the reported dimension of fixed-axes components (C89_dim). Arguments are arrays with a shape; other Python types are not modelled."
  },
  {
   "property": "C90",
   "status": "partial",
   "theorems": [
    "Mjinx.Props.C90_position_task_partial",
    "Mjinx.Props.C90_com_task",
    "Mjinx.Props.C90_frame_task_partial",
    "Mjinx.Props.C90_position_barrier_partial",
    "Mjinx.Props.C90_long_mask",
    "Mjinx.Props.C90_camera"
   ],
   "note": "False for masks with more entries than axes (entry 3 reads axis 2, jax clamps) and for object types other than body, geometry and site (their id indexes bodies); both negations proved. Proved for bodies, geometries and sites with masks of the right length or none; for tasks after histories whose most recent model change was accepted (C19 says what happens otherwise). CoM tasks: any history."
  },
  {
   "property": "C91",
   "status": "proved",
   "theorems": [
    "Mjinx.Props.C91_control_problem",
    "Mjinx.Props.C91_solution",
    "Mjinx.Props.C91_real_solution"
   ],
   "note": "For every program and every configuration at which sizes fit. Velocity limits enter as the code uses them, the box from -v_max to -v_min (C21). The QP solver is assumed exact."
  },
  {
   "property": "C92",
   "status": "proved",
   "theorems": [
    "Mjinx.Props.C92_loss",
    "Mjinx.Props.C92_step"
   ],
   "note": "ReadingsOf lists the components of the problem with their attributes and values; the hypothesis that values have the declared sizes is C68."
  },
  {
   "property": "C93",
   "status": "proved",
   "theorems": [
    "Mjinx.Props.C93_joint_limits",
    "Mjinx.Props.C93_tasks_and_limits"
   ],
   "note": "Spec/Loop defines control programs. Sizes must fit at every control step (C68), no model update may be refused half way (C17 shows what happens then), and the barrier is bound to the model of the problem. The limits fit the number of joints."
  },
  {
   "property": "C94",
   "status": "proved",
   "theorems": [
    "Mjinx.Props.C94_converges",
    "Mjinx.Props.C94_task_and_limits"
   ],
   "note": "Control programs as in C93. C94_converges: geometric decay with the exact factor under compatibility at every control step; C94_task_and_limits derives compatibility from the attributes of the components. The QP solver is assumed exact (returns an optimum when there is one)."
  },
  {
   "property": "C95",
   "status": "proved",
   "theorems": [
    "Mjinx.Props.C95_saved",
    "Mjinx.Props.C95_not_recording",
    "Mjinx.Props.C95_closed"
   ],
   "note": "Histories of marker calls, updates, saves and closes. mediapy.write_video is assumed to refuse an empty list and to replace a file of the same name; a closed renderer refuses update_scene."
  },
  {
   "property": "C96",
   "status": "proved",
   "theorems": [
    "Mjinx.Props.C96_control_problem",
    "Mjinx.Props.C96_joint_limits",
    "Mjinx.Props.C96_converges",
    "Mjinx.Props.C96_task_and_limits"
   ],
   "note": "Spec/Approx. C96_control_problem: tolerances of rows and objectives in terms of the components; C96_joint_limits, C96_converges: bounds for control programs of any length; C96_task_and_limits: both bounds from the attributes of the components alone. Hypotheses otherwise as in C93 and C94; 0 < gain and gain * dt <= 1."
  },
  {
   "property": "C97",
   "status": "proved",
   "theorems": [
    "Mjinx.Props.C97_component",
    "Mjinx.Props.C97_all",
    "Mjinx.Props.C97_gain",
    "Mjinx.Props.C97_problem"
   ],
   "note": "Spec/History. C97_component and C97_all: the heap refines to independent objects with their own histories; C97_gain, C97_problem: what the gain and the velocity limits are after any program, read off the program text."
  },
  {
   "property": "C98",
   "status": "proved",
   "theorems": [
    "Mjinx.Props.C98_robot",
    "Mjinx.Props.C98_position_limits"
   ],
   "note": "Spec/Sampled. C98_position_limits: induction over control programs; the example in Props/SampledEx is a crane with a trolley and a hinged arm under a program of API calls and control steps. C98_robot: for arms with hinges (possibly on rails) in the modelled simulator, the acceleration bound is computed from link lengths and velocity limits (Spec/Reach), example in Props/RobotSampledEx. Robots with hinge and slide joints, as the property says."
  },
  {
   "property": "C99",
   "status": "proved",
   "theorems": [
    "Mjinx.Props.C99_robot",
    "Mjinx.Props.C99_converges"
   ],
   "note": "Spec/Sampled. C99_converges: position tasks for bodies, geoms and sites and centre-of-mass tasks; example in Props/SampledEx. C99_robot: the same for arms with hinges (possibly on rails) in the modelled simulator, with the acceleration bound computed from link lengths and velocity limits (Spec/Reach), example in Props/RobotSampledEx. Robots with hinge and slide joints, as the property says."
  },
  {
   "property": "C100",
   "status": "proved",
   "theorems": [
    "Mjinx.Props.C100_joint_limits"
   ],
   "note": "Spec/Steer. C100_joint_limits: set-up checked once, any loop that steers only tasks; example with arbitrary targets."
  },
  {
   "property": "C101",
   "status": "proved",
   "theorems": [
    "Mjinx.Props.C101_follows",
    "Mjinx.Props.C101_targets"
   ],
   "note": "Spec/Follow. C101_follows: moving targets for every control program. C101_targets: the loop that sends a task set up once to one target after the other; works, follows and keeps limits without further assumptions; example with arbitrary targets."
  },
  {
   "property": "C102",
   "status": "proved",
   "theorems": [
    "Mjinx.Props.C102_component",
    "Mjinx.Props.C102_problem"
   ],
   "note": "Spec/Compiles. C102_component, C102_problem: compiling succeeds exactly for complete components; after histories in which no model update raised (see C19, C20)."
  },
  {
   "property": "C103",
   "status": "proved",
   "theorems": [
    "Mjinx.Props.C103_attributes",
    "Mjinx.Props.C103_copy",
    "Mjinx.Props.C103_setter"
   ],
   "note": "Copies keep class and all other fields; setter + compile = copy with the changed fields, for every reachable component and setter."
  },
  {
   "property": "C104",
   "status": "proved",
   "theorems": [
    "Mjinx.Props.C104_motion"
   ],
   "note": "For named bodies, geometries and sites, any mask of length six; outside of the thresholds where jaxlie's logarithm is approximate (stated in the theorem by the trace of the relative rotation)."
  },
  {
   "property": "C105",
   "status": "proved",
   "theorems": [
    "Mjinx.Props.C105_present",
    "Mjinx.Props.C105_shown",
    "Mjinx.Props.C105_succeeds"
   ],
   "note": "For the viewer; recordings disagree (C62_recording_replaces_model, C62_recording_loses_markers). The colour is the one the code mixes, whose order C64 complains about."
  },
  {
   "property": "C106",
   "status": "partial",
   "theorems": [
    "Mjinx.Props.C106_distances",
    "Mjinx.Props.C106_smallest",
    "Mjinx.Props.C106_points_partial",
    "Mjinx.Props.C106_points_per_contact",
    "Mjinx.Props.C106_refused"
   ],
   "note": "Points and frames are stacked per contact, not per pair (C106_points_per_contact): with several contacts per pair they do not belong to the distances at the same positions; proved for single contacts. Distances, agreement with the barrier and refusals are proved in full."
  },
  {
   "property": "C107",
   "status": "proved",
   "theorems": [
    "Mjinx.Props.C107_world",
    "Mjinx.Props.C107_local",
    "Mjinx.Props.C107_point"
   ],
   "note": "Over the real numbers, with the formulas of mjx's kinematics and com_pos written down in Model/Simulator. C107_world and C107_local: position and rotation matrix; C107_point: points of bodies."
  },
  {
   "property": "C108",
   "status": "proved",
   "theorems": [
    "Mjinx.Props.C108_spheres",
    "Mjinx.Props.C108_values",
    "Mjinx.Props.C108_apart"
   ],
   "note": "Over the real numbers, with the formulas of mjx's kinematics and sphere_sphere written down in Model/Simulator. C108_spheres: rates pair by pair; C108_values: rates of the sorted values; C108_apart: meaning of nonnegative values."
  },
  {
   "property": "C109",
   "status": "partial",
   "theorems": [
    "Mjinx.Props.C109_planes_partial",
    "Mjinx.Props.C109_reversed"
   ],
   "note": "C109_planes_partial: pairs that list the plane first. C109_reversed: for a pair that lists the sphere first the row is the rate with the wrong sign."
  },
  {
   "property": "C110",
   "status": "partial",
   "theorems": [
    "Mjinx.Props.C110_position",
    "Mjinx.Props.C110_com",
    "Mjinx.Props.C110_position_partial",
    "Mjinx.Props.C110_violated"
   ],
   "note": "C110_position and C110_com: exact relation, with a factor 2 in the angular columns of free and ball joints; equal for robots without such joints (C110_position_partial); C110_violated: a concrete free body."
  },
  {
   "property": "C111",
   "status": "partial",
   "theorems": [
    "Mjinx.Props.C111_spheres",
    "Mjinx.Props.C111_spheres_rate",
    "Mjinx.Props.C111_planes_partial",
    "Mjinx.Props.C111_planes_rate_partial",
    "Mjinx.Props.C111_violated"
   ],
   "note": "C111_spheres, C111_spheres_rate: sphere pairs in full. C111_planes_partial, C111_planes_rate_partial: planes listed first. C111_violated: with the sphere listed first a robot that follows accepted velocities drives into the plane."
  },
  {
   "property": "C112",
   "status": "partial",
   "theorems": [
    "Mjinx.Props.C112_spheres",
    "Mjinx.Props.C112_floors_partial"
   ],
   "note": "C112_spheres: full property for spheres. C112_floors_partial: spheres above planes of the world that have the smaller geom id; with the larger id the Jacobian has the wrong sign (C109_reversed, C111_violated), moving planes are missing. Program that meets the hypotheses of both: Props/CollisionSampledEx."
  },
  {
   "property": "C113",
   "status": "proved",
   "theorems": [
    "Mjinx.Props.C113_rows",
    "Mjinx.Props.C113_flow",
    "Mjinx.Props.C113_steps"
   ],
   "note": "C113_rows, C113_flow (all robots), C113_steps (arms of hinges on rails, linear couplings, as in the statement). Rows of weld constraints are arbitrary here; C116 treats them. Program and motion that meet the hypotheses: Props/LoopClosureEx."
  },
  {
   "property": "C114",
   "status": "proved",
   "theorems": [
    "Mjinx.Props.C114_no_trace",
    "Mjinx.Props.C114_reused_name_trace",
    "Mjinx.Props.C114_configuration"
   ],
   "note": "Histories of any length. The statement excludes names used twice; C114_reused_name_trace shows that it is false for them."
  },
  {
   "property": "C115",
   "status": "partial",
   "theorems": [
    "Mjinx.Props.C115_values",
    "Mjinx.Props.C115_rows_partial",
    "Mjinx.Props.C115_listed",
    "Mjinx.Props.C115_mixed_differs"
   ],
   "note": "Values: proved for all pairs (C115_values, C115_listed). Jacobian: proved for pairs of one kind at distinct distances (C115_rows_partial); C115_mixed_differs shows that the code violates it for pairs of different kinds, as in C55."
  },
  {
   "property": "C116",
   "status": "proved",
   "theorems": [
    "Mjinx.Props.C116_rows",
    "Mjinx.Props.C116_flow",
    "Mjinx.Props.C116_steps"
   ],
   "note": "C116_rows, C116_flow (all robots), C116_steps (arms of hinges on rails with connect, weld and linear joint constraints). Program and motion that meet the hypotheses: Props/WeldClosureEx."
  },
  {
   "property": "C117",
   "status": "proved",
   "theorems": [
    "Mjinx.Props.C117_runs",
    "Mjinx.Props.C117_always",
    "Mjinx.Props.C117_robot"
   ],
   "note": "C117_runs for all kinds of components, with the singular configurations of barriers named in the conclusion (they are what C87 is partial for); C117_always when the barriers are joint barriers; C117_robot: both on every robot with the kinematics of mjx, where nothing is assumed about sizes of data. Hypotheses: no model update failed half way (C17, C21), the simulator returns arrays of fitting sizes."
  },
  {
   "property": "C118",
   "status": "proved",
   "theorems": [
    "Mjinx.Props.C118_local",
    "Mjinx.Props.C118_sizes",
    "Mjinx.Props.C118_global",
    "Mjinx.Props.C118_calls",
    "Mjinx.Props.C118_again",
    "Mjinx.Props.C118_robot"
   ],
   "note": "C118_local, C118_global: ends alike; C118_sizes: the QP has the same sizes; C118_calls, C118_again: programs that keep shapes; C118_robot: the hypothesis about sizes is met by every robot with the kinematics of mjx. Hypothesis FixedSizes (DESIGN 7)."
  },
  {
   "property": "C119",
   "status": "proved",
   "theorems": [
    "Mjinx.Props.C119_descent",
    "Mjinx.Props.C119_speed",
    "Mjinx.Props.C119_misfit",
    "Mjinx.Props.C119_damped",
    "Mjinx.Props.C119_best_damped",
    "Mjinx.Props.C119_best_calmer",
    "Mjinx.Props.C119_solution",
    "Mjinx.Props.C119_energy"
   ],
   "note": "Descent, speed bound and misfit for every assembled problem with an optimal velocity; for programs through C91_real_solution with an exact solver. The energy theorem covers joint, position and CoM tasks with the default gain function and one gain per task, barriers and hard constraints, without angular velocities of free/ball joints."
  },
  {
   "property": "C120",
   "status": "proved",
   "theorems": [
    "Mjinx.Props.C120_best_priority",
    "Mjinx.Props.C120_best_limit",
    "Mjinx.Props.C120_priority"
   ],
   "note": "Exact QP solver (`Exact`); `WellSized` for both problems."
  },
  {
   "property": "C121",
   "status": "proved",
   "theorems": [
    "Mjinx.Props.C121_same_rates",
    "Mjinx.Props.C121_best",
    "Mjinx.Props.C121_nudge"
   ],
   "note": "Frame tasks are left out: their Jacobian depends on the target. Exact QP solver; `ForgetsConstants`, `FixedSizes`."
  },
  {
   "property": "C122",
   "status": "partial",
   "theorems": [
    "Mjinx.Props.C122_component_partial",
    "Mjinx.Props.C122_same_command_partial",
    "Mjinx.Props.C122_integrate",
    "Mjinx.Props.C122_loop_partial",
    "Mjinx.Props.C122_frame_wrong"
   ],
   "note": "Components, commands and loops are proved for all components except frame tasks, for which the claim is false: C122_frame_wrong gives a robot on its target whose frame task has another Jacobian after both have been moved by one metre (consequence of C60)."
  },
  {
   "property": "C123",
   "status": "partial",
   "theorems": [
    "Mjinx.Props.C123_columns",
    "Mjinx.Props.C123_best_partial",
    "Mjinx.Props.C123_program_partial",
    "Mjinx.Props.C123_damped_wrong",
    "Mjinx.Props.C123_own_value",
    "Mjinx.Props.C123_own_jacobian",
    "Mjinx.Props.C123_elsewhere"
   ],
   "note": "Columns proved for every component class but centre-of-mass tasks (which are about all bodies); the decomposition and the programs are proved for undamped tasks and barriers without safe displacement gain. With damping it is false: C123_damped_wrong."
  },
  {
   "property": "C124",
   "status": "proved",
   "theorems": [
    "Mjinx.Props.C124_rest",
    "Mjinx.Props.C124_targets",
    "Mjinx.Props.C124_progress",
    "Mjinx.Props.C124_standstill",
    "Mjinx.Props.C124_stays"
   ],
   "note": "The slope is the first-order change of the total weighted error; Pinned is needed for uniqueness only. C124_stays is over the reals with exact quaternion integration and an exact QP solver."
  },
  {
   "property": "C125",
   "status": "partial",
   "theorems": [
    "Mjinx.Props.C125_best_partial",
    "Mjinx.Props.C125_calls",
    "Mjinx.Props.C125_solves",
    "Mjinx.Props.C125_program_partial",
    "Mjinx.Props.C125_loop_partial",
    "Mjinx.Props.C125_damped_wrong"
   ],
   "note": "Missing: damped tasks. The claim is false for them (C125_damped_wrong): damping grows with the square of the gain. C125_calls and C125_solves hold without restriction."
  },
  {
   "property": "C126",
   "status": "proved",
   "theorems": [
    "Mjinx.Props.C126_best",
    "Mjinx.Props.C126_program",
    "Mjinx.Props.C126_loop"
   ],
   "note": "Over the reals with an exact QP solver for programs; C126_best over any ordered field. A barrier with a positive safe displacement gain does have an influence when far away, by its documented purpose."
  }
 ]
}
