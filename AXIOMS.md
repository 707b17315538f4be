# Axioms of each theorem

Output of `#print axioms`, collected by `tools/axioms.py`.

* `Mjinx.Props.C01_compiled_matches_settings`: propext, Classical.choice, Quot.sound
* `Mjinx.Props.C01_caching_invisible`: propext, Classical.choice, Quot.sound
* `Mjinx.Props.C01_problem_compile`: propext, Classical.choice, Quot.sound
* `Mjinx.Props.C02_compile_twice`: propext, Classical.choice, Quot.sound
* `Mjinx.Props.C03_insertion_order`: propext, Classical.choice, Quot.sound
* `Mjinx.Props.C03_lookup`: propext, Classical.choice, Quot.sound
* `Mjinx.Props.C03_names_distinct`: propext, Classical.choice, Quot.sound
* `Mjinx.Props.C04_refused_add`: propext, Classical.choice, Quot.sound
* `Mjinx.Props.C04_duplicate_name`: propext, Classical.choice, Quot.sound
* `Mjinx.Props.C05_task_lookup`: propext, Classical.choice, Quot.sound
* `Mjinx.Props.C05_barrier_lookup`: propext, Classical.choice, Quot.sound
* `Mjinx.Props.C06_limits_shape`: propext, Classical.choice, Quot.sound
* `Mjinx.Props.C06_update`: propext, Classical.choice, Quot.sound
* `Mjinx.Props.C07_shared_component_rebound`: propext, Classical.choice, Quot.sound
* `Mjinx.Props.C07_compiled_model_partial`: propext, Classical.choice, Quot.sound
* `Mjinx.Props.C08_rejected_setter`: propext, Quot.sound
* `Mjinx.Props.C09_rejected_model_changes_task`: propext, Classical.choice, Quot.sound
* `Mjinx.Props.C09_rejected_model_changes_joint_task`: propext, Classical.choice, Quot.sound
* `Mjinx.Props.C09_rejected_model_keeps_settings_partial`: propext, Quot.sound
* `Mjinx.Props.C10_gain_expansion`: propext, Quot.sound
* `Mjinx.Props.C10_gain_rank`: propext, Classical.choice, Quot.sound
* `Mjinx.Props.C11_cost_expansion`: propext, Classical.choice, Quot.sound
* `Mjinx.Props.C11_soft_cost`: propext, Classical.choice, Quot.sound
* `Mjinx.Props.C12_mask_agrees_partial`: propext, Classical.choice, Quot.sound
* `Mjinx.Props.C12_mask_agrees_joint_partial`: propext, Classical.choice, Quot.sound
* `Mjinx.Props.C12_equality_mask_stale`: propext, Classical.choice, Quot.sound
* `Mjinx.Props.C12_joint_mask_stale_after_rejection`: propext, Classical.choice, Quot.sound
* `Mjinx.Props.C12_self_collision_mask_stale`: propext, Classical.choice, Quot.sound
* `Mjinx.Props.C12_default_selects_all`: propext, Classical.choice, Quot.sound
* `Mjinx.Props.C13_task_coordinates`: propext, Classical.choice, Quot.sound
* `Mjinx.Props.C13_barrier_coordinates`: propext, Classical.choice, Quot.sound
* `Mjinx.Props.C13_wrong_length_refused`: propext, Classical.choice, Quot.sound
* `Mjinx.Props.C14_exact_derivative`: propext, Classical.choice, Quot.sound
* `Mjinx.Props.C15_compiled_shapes`: propext, Classical.choice, Quot.sound
* `Mjinx.Props.C16_nonneg_iff_within`: propext, Classical.choice, Quot.sound
* `Mjinx.Props.C16_default_limits`: propext, Classical.choice, Quot.sound
* `Mjinx.Props.C17_masked_default_refused`: propext, Classical.choice, Quot.sound
* `Mjinx.Props.C17_default_limits_partial`: propext, Classical.choice, Quot.sound
* `Mjinx.Props.C18_nonneg_iff_within`: propext, Classical.choice, Quot.sound
* `Mjinx.Props.C18_excluded_ignored`: propext, Classical.choice, Quot.sound
* `Mjinx.Props.C18_included_stored`: propext, Classical.choice, Quot.sound
* `Mjinx.Props.C18_initial_bounds`: propext, Classical.choice, Quot.sound
* `Mjinx.Props.C19_barrier_object`: propext, Classical.choice, Quot.sound
* `Mjinx.Props.C19_missing_object_refused`: propext, Classical.choice, Quot.sound
* `Mjinx.Props.C19_never_bound`: propext, Classical.choice, Quot.sound
* `Mjinx.Props.C19_task_object_partial`: propext, Classical.choice, Quot.sound
* `Mjinx.Props.C19_task_after_rejection`: propext, Classical.choice, Quot.sound
* `Mjinx.Props.C20_frame_target_fits`: propext, Classical.choice, Quot.sound
* `Mjinx.Props.C20_frame_update`: propext, Quot.sound
* `Mjinx.Props.C20_target_fits`: propext, Classical.choice, Quot.sound
* `Mjinx.Props.C20_update`: propext, Quot.sound
* `Mjinx.Props.C20_joint_target_fits_partial`: propext, Classical.choice, Quot.sound
* `Mjinx.Props.C20_joint_after_rejection`: propext, Classical.choice, Quot.sound
* `Mjinx.Props.C21_limit_rows`: propext, Classical.choice, Quot.sound
* `Mjinx.Props.C21_only_symmetric`: propext, Classical.choice, Quot.sound
* `Mjinx.Props.C21_asymmetric_violation`: propext, Classical.choice, Quot.sound
* `Mjinx.Props.C21_velocity_limits_partial`: propext, Classical.choice, Quot.sound
* `Mjinx.Props.C22_barrier_rows`: propext, Classical.choice, Quot.sound
* `Mjinx.Props.C23_hard_constraints`: propext, Classical.choice, Quot.sound
* `Mjinx.Props.C24_convex`: propext, Classical.choice, Quot.sound
* `Mjinx.Props.C25_objective`: propext, Classical.choice, Quot.sound
* `Mjinx.Props.C26_weight_is_squared`: propext, Classical.choice, Quot.sound
* `Mjinx.Props.C26_documented_weight_false`: propext, Classical.choice, Quot.sound
* `Mjinx.Props.C26_documented_weight_partial`: propext, Classical.choice, Quot.sound
* `Mjinx.Props.C27_order`: propext, Classical.choice, Quot.sound
* `Mjinx.Props.C28_no_history`: propext, Classical.choice, Quot.sound
* `Mjinx.Props.C29_joint_limits_invariant`: propext, Classical.choice, Quot.sound
* `Mjinx.Props.C30_geometric`: propext, Classical.choice, Quot.sound
* `Mjinx.Props.C31_finite_partial`: propext, Classical.choice, Quot.sound
* `Mjinx.Props.C31_zero_jacobian`: propext, Classical.choice, Quot.sound
* `Mjinx.Props.C32_active_ignored`: propext, Classical.choice, Quot.sound
* `Mjinx.Props.C32_inactive_still_constrains`: propext, Classical.choice, Quot.sound
* `Mjinx.Props.C33_soft_constraint_is_task`: propext, Classical.choice, Quot.sound
* `Mjinx.Props.C34_solve`: propext, Classical.choice, Quot.sound
* `Mjinx.Props.C34_init`: propext, Quot.sound
* `Mjinx.Props.C34_global_solve`: propext, Classical.choice, Quot.sound
* `Mjinx.Props.C34_global_init`: propext, Quot.sound
* `Mjinx.Props.C35_qp_shapes`: propext, Classical.choice, Quot.sound
* `Mjinx.Props.C36_standing_still`: propext, Classical.choice, Quot.sound
* `Mjinx.Props.C37_loss`: propext, Classical.choice, Quot.sound
* `Mjinx.Props.C37_classes`: propext, Classical.choice, Quot.sound
* `Mjinx.Props.C38_cost_ignored`: propext, Classical.choice, Quot.sound
* `Mjinx.Props.C38_documented_false`: propext, Classical.choice, Quot.sound
* `Mjinx.Props.C39_penalty_monotone_partial`: propext, Classical.choice, Quot.sound
* `Mjinx.Props.C39_flat_when_violated`: propext, Classical.choice, Quot.sound
* `Mjinx.Props.C40_constraint_refused`: propext, Classical.choice, Quot.sound
* `Mjinx.Props.C40_only_constraints`: propext, Classical.choice, Quot.sound
* `Mjinx.Props.C41_velocity`: propext, Classical.choice, Quot.sound
* `Mjinx.Props.C41_limits_ignored`: propext, Classical.choice, Quot.sound
* `Mjinx.Props.C42_cross`: propext, Classical.choice, Quot.sound
* `Mjinx.Props.C42_antisymmetric`: propext, Classical.choice, Quot.sound
* `Mjinx.Props.C43_product`: propext, Classical.choice, Quot.sound
* `Mjinx.Props.C43_orthonormal`: propext, Classical.choice, Quot.sound
* `Mjinx.Props.C43_orthogonal`: propext, Classical.choice, Quot.sound
* `Mjinx.Props.C43_derivative`: propext, Classical.choice, Quot.sound
* `Mjinx.Props.C44_derivative_partial`: propext, Classical.choice, Quot.sound
* `Mjinx.Props.C44_quaternion_rate_wrong`: propext, Classical.choice, Quot.sound
* `Mjinx.Props.C45_size`: propext, Quot.sound
* `Mjinx.Props.C45_zero_coordinates`: propext, Classical.choice, Quot.sound
* `Mjinx.Props.C45_identity_quaternions`: propext, Classical.choice, Quot.sound
* `Mjinx.Props.C45_no_joints`: propext, Quot.sound
* `Mjinx.Props.C46_ball_partial`: propext, Classical.choice, Quot.sound
* `Mjinx.Props.C46_free_partial`: propext, Classical.choice, Quot.sound
* `Mjinx.Props.C46_size`: propext, Quot.sound
* `Mjinx.Props.C46_vanishes`: propext, Quot.sound
* `Mjinx.Props.C46_scalar`: propext, Classical.choice, Quot.sound
* `Mjinx.Props.C46_directions_disagree`: propext, Classical.choice, Quot.sound
* `Mjinx.Props.C47_frame_jacobian`: propext, Classical.choice, Quot.sound
* `Mjinx.Props.C47_ancestors_contribute`: propext, Classical.choice, Quot.sound
* `Mjinx.Props.C47_point_jacobian`: propext, Classical.choice, Quot.sound
* `Mjinx.Props.C48_local_is_rotated`: propext, Classical.choice, Quot.sound
* `Mjinx.Props.C48_recover`: propext, Classical.choice, Quot.sound
* `Mjinx.Props.C48_norms`: propext, Classical.choice, Quot.sound
* `Mjinx.Props.C49_frame_to_world`: propext, Quot.sound
* `Mjinx.Props.C49_actual`: propext, Classical.choice, Quot.sound
* `Mjinx.Props.C49_world_partial`: propext, Classical.choice, Quot.sound
* `Mjinx.Props.C49_only_involutions`: propext, Classical.choice, Quot.sound
* `Mjinx.Props.C50_array_limit`: propext, Classical.choice, Quot.sound
* `Mjinx.Props.C50_float_limit`: propext, Classical.choice, Quot.sound
* `Mjinx.Props.C50_defined`: propext, Classical.choice, Quot.sound
* `Mjinx.Props.C51_listed_bodies`: propext, Classical.choice, Quot.sound
* `Mjinx.Props.C51_all_bodies`: propext, Classical.choice, Quot.sound
* `Mjinx.Props.C51_sorted`: propext, Classical.choice, Quot.sound
* `Mjinx.Props.C51_root_bodies_ignore_world`: propext, Quot.sound
* `Mjinx.Props.C52_order_irrelevant`: propext, Classical.choice, Quot.sound
* `Mjinx.Props.C53_groups`: propext, Classical.choice, Quot.sound
* `Mjinx.Props.C53_contacts`: propext, Classical.choice, Quot.sound
* `Mjinx.Props.C53_unknown_types`: propext, Classical.choice, Quot.sound
* `Mjinx.Props.C54_values`: propext, Classical.choice, Quot.sound
* `Mjinx.Props.C54_safe`: propext, Classical.choice, Quot.sound
* `Mjinx.Props.C54_too_many`: propext, Classical.choice, Quot.sound
* `Mjinx.Props.C55_bodies_by_position`: propext, Classical.choice, Quot.sound
* `Mjinx.Props.C55_uniform_partial`: propext, Classical.choice, Quot.sound
* `Mjinx.Props.C55_flipped_pair`: propext, Classical.choice, Quot.sound
* `Mjinx.Props.C55_sign_wrong`: propext, Classical.choice, Quot.sound
* `Mjinx.Props.C56_unknown_is_last`: propext, Classical.choice, Quot.sound
* `Mjinx.Props.C56_unknown_accepted`: propext, Classical.choice, Quot.sound
* `Mjinx.Props.C56_refused_partial`: propext, Quot.sound
* `Mjinx.Props.C57_size`: propext, Classical.choice, Quot.sound
* `Mjinx.Props.C57_unsupported_refused`: propext, Quot.sound
* `Mjinx.Props.C57_rows`: propext, Classical.choice, Quot.sound
* `Mjinx.Props.C58_from_str`: propext, Classical.choice, Quot.sound
* `Mjinx.Props.C58_includes`: none
* `Mjinx.Props.C58_constructor_lower_case`: propext, Classical.choice, Quot.sound
* `Mjinx.Props.C59_zero_iff_target`: propext, Classical.choice, Quot.sound
* `Mjinx.Props.C59_array_order`: propext, Quot.sound
* `Mjinx.Props.C59_named_object`: propext, Classical.choice, Quot.sound
* `Mjinx.Props.C60_library_exp`: propext, Classical.choice, Quot.sound
* `Mjinx.Props.C60_translation_partial`: propext, Classical.choice, Quot.sound
* `Mjinx.Props.C60_wrong`: propext, Classical.choice, Quot.sound
* `Mjinx.Props.C61_subtrees`: propext, Classical.choice, Quot.sound
* `Mjinx.Props.C61_com_error`: propext, Classical.choice, Quot.sound
* `Mjinx.Props.C61_com_differentiated`: propext, Classical.choice, Quot.sound
* `Mjinx.Props.C62_recording_loses_markers`: propext, Classical.choice, Quot.sound
* `Mjinx.Props.C62_consecutive`: propext, Classical.choice, Quot.sound
* `Mjinx.Props.C62_unique`: propext, Classical.choice, Quot.sound
* `Mjinx.Props.C62_viewer_slots`: propext, Classical.choice, Quot.sound
* `Mjinx.Props.C62_refuses`: propext, Classical.choice, Quot.sound
* `Mjinx.Props.C62_recording_replaces_model`: propext, Classical.choice, Quot.sound
* `Mjinx.Props.C62_reused_name_gap`: propext, Classical.choice, Quot.sound
* `Mjinx.Props.C63_rotation`: propext, Classical.choice, Quot.sound
* `Mjinx.Props.C63_shapes`: propext, Classical.choice, Quot.sound
* `Mjinx.Props.C64_reversed`: propext, Classical.choice, Quot.sound
* `Mjinx.Props.C64_first_is_end`: propext, Classical.choice, Quot.sound
* `Mjinx.Props.C64_single_color_partial`: propext, Classical.choice, Quot.sound
* `Mjinx.Props.C65_worldbody`: propext, Classical.choice, Quot.sound
* `Mjinx.Props.C65_document`: propext, Classical.choice, Quot.sound
* `Mjinx.Props.C65_no_worldbody`: propext
* `Mjinx.Props.C65_members`: propext, Classical.choice, Quot.sound
* `Mjinx.Props.C66_restored`: propext, Classical.choice, Quot.sound
* `Mjinx.Props.C66_without_dash`: propext, Classical.choice, Quot.sound
* `Mjinx.Props.C67_axes`: propext, Classical.choice, Quot.sound
* `Mjinx.Props.C67_assignable`: propext, Classical.choice, Quot.sound
* `Mjinx.Props.C67_leaves`: propext, Classical.choice, Quot.sound
* `Mjinx.Props.C67_target_path`: propext, Classical.choice, Quot.sound
* `Mjinx.Props.C68_value_partial`: propext, Classical.choice, Quot.sound
* `Mjinx.Props.C68_jacobian_partial`: propext, Classical.choice, Quot.sound
* `Mjinx.Props.C68_gain`: propext, Classical.choice, Quot.sound
* `Mjinx.Props.C68_component_partial`: propext, Classical.choice, Quot.sound
* `Mjinx.Props.C68_problem_partial`: propext, Classical.choice, Quot.sound
* `Mjinx.Props.C68_pairs_changed`: propext, Classical.choice, Quot.sound
* `Mjinx.Props.C68_wrong`: propext, Classical.choice, Quot.sound
* `Mjinx.Props.C69_step`: propext, Classical.choice, Quot.sound
* `Mjinx.Props.C69_converges`: propext, Classical.choice, Quot.sound
* `Mjinx.Props.C70_joint_task_partial`: propext, Classical.choice, Quot.sound
* `Mjinx.Props.C70_norm_grows`: propext, Classical.choice, Quot.sound
* `Mjinx.Props.C70_wrong`: propext, Classical.choice, Quot.sound
* `Mjinx.Props.C71_size`: propext, Classical.choice, Quot.sound
* `Mjinx.Props.C71_unit`: propext, Classical.choice, Quot.sound
* `Mjinx.Props.C71_rest`: propext, Classical.choice, Quot.sound
* `Mjinx.Props.C71_two_steps`: propext, Classical.choice, Quot.sound
* `Mjinx.Props.C72_assets`: propext, Classical.choice, Quot.sound
* `Mjinx.Props.C72_missing`: propext, Classical.choice, Quot.sound
* `Mjinx.Props.C73_geoms`: propext, Classical.choice, Quot.sound
* `Mjinx.Props.C74_class_power`: propext, Classical.choice, Quot.sound
* `Mjinx.Props.C74_opacity_partial`: propext, Classical.choice, Quot.sound
* `Mjinx.Props.C74_shared_class_wrong`: propext, Classical.choice, Quot.sound
* `Mjinx.Props.C74_materials`: propext, Quot.sound
* `Mjinx.Props.C75_names_distinct`: propext, Classical.choice, Quot.sound
* `Mjinx.Props.C75_lights`: propext, Classical.choice, Quot.sound
* `Mjinx.Props.C75_prefix_injective`: propext, Classical.choice, Quot.sound
* `Mjinx.Props.C76_update`: propext, Quot.sound
* `Mjinx.Props.C76_frames`: propext, Classical.choice, Quot.sound
* `Mjinx.Props.C77_structure_kept`: propext, Classical.choice, Quot.sound
* `Mjinx.Props.C77_needs_same_static`: propext, Classical.choice, Quot.sound
* `Mjinx.Props.C77_damping`: propext, Classical.choice, Quot.sound
* `Mjinx.Props.C78_rate`: propext, Classical.choice, Quot.sound
* `Mjinx.Props.C78_iff`: propext, Classical.choice, Quot.sound
* `Mjinx.Props.C78_rate_partial`: propext, Classical.choice, Quot.sound
* `Mjinx.Props.C78_wrong`: propext, Classical.choice, Quot.sound
* `Mjinx.Props.C78_robot`: propext, Classical.choice, Quot.sound
* `Mjinx.Props.C78_robot_partial`: propext, Classical.choice, Quot.sound
* `Mjinx.Props.C79_batch`: propext, Classical.choice, Quot.sound
* `Mjinx.Props.C80_gain`: propext, Classical.choice, Quot.sound
* `Mjinx.Props.C80_cost`: propext, Classical.choice, Quot.sound
* `Mjinx.Props.C80_safe_displacement_gain`: propext, Classical.choice, Quot.sound
* `Mjinx.Props.C80_target`: propext, Classical.choice, Quot.sound
* `Mjinx.Props.C80_target_frame`: propext, Classical.choice, Quot.sound
* `Mjinx.Props.C80_constraint`: propext, Classical.choice, Quot.sound
* `Mjinx.Props.C80_self_collision`: propext, Classical.choice, Quot.sound
* `Mjinx.Props.C80_joint_target`: propext, Classical.choice, Quot.sound
* `Mjinx.Props.C80_joint_limits`: propext, Classical.choice, Quot.sound
* `Mjinx.Props.C80_position_limits`: propext, Classical.choice, Quot.sound
* `Mjinx.Props.C80_compiled`: propext, Classical.choice, Quot.sound
* `Mjinx.Props.C81_safe_feasible`: propext, Classical.choice, Quot.sound
* `Mjinx.Props.C81_optimal_exists`: propext, Classical.choice, Quot.sound
* `Mjinx.Props.C81_safe_solution`: propext, Classical.choice, Quot.sound
* `Mjinx.Props.C82_unique`: propext, Classical.choice, Quot.sound
* `Mjinx.Props.C82_same_rates`: propext, Classical.choice, Quot.sound
* `Mjinx.Props.C82_needs_curvature`: propext, Classical.choice, Quot.sound
* `Mjinx.Props.C83_compatible_tasks`: propext, Classical.choice, Quot.sound
* `Mjinx.Props.C83_task_rate`: propext, Classical.choice, Quot.sound
* `Mjinx.Props.C84_relative_costs`: propext, Classical.choice, Quot.sound
* `Mjinx.Props.C85_kkt_optimal`: propext, Classical.choice, Quot.sound
* `Mjinx.Props.C85_negative_damping`: propext, Classical.choice, Quot.sound
* `Mjinx.Props.C86_additive`: propext, Classical.choice, Quot.sound
* `Mjinx.Props.C86_zero_cost`: propext, Classical.choice, Quot.sound
* `Mjinx.Props.C86_monotone`: propext, Classical.choice, Quot.sound
* `Mjinx.Props.C87_component_partial`: propext, Classical.choice, Quot.sound
* `Mjinx.Props.C87_problem_partial`: propext, Classical.choice, Quot.sound
* `Mjinx.Props.C87_solve_partial`: propext, Classical.choice, Quot.sound
* `Mjinx.Props.C87_no_pairs`: propext, Classical.choice, Quot.sound
* `Mjinx.Props.C87_unknown_types`: propext, Classical.choice, Quot.sound
* `Mjinx.Props.C87_no_pairs_compiles`: propext, Classical.choice, Quot.sound
* `Mjinx.Props.C88_safe_partial`: propext, Classical.choice, Quot.sound
* `Mjinx.Props.C88_rate_partial`: propext, Classical.choice, Quot.sound
* `Mjinx.Props.C88_task_partial`: propext, Classical.choice, Quot.sound
* `Mjinx.Props.C88_joint_limits`: propext, Classical.choice, Quot.sound
* `Mjinx.Props.C88_joint_task`: propext, Classical.choice, Quot.sound
* `Mjinx.Props.C88_wrong`: propext, Classical.choice, Quot.sound
* `Mjinx.Props.C88_robot_safe_partial`: propext, Classical.choice, Quot.sound
* `Mjinx.Props.C88_robot_rate_partial`: propext, Classical.choice, Quot.sound
* `Mjinx.Props.C88_robot_task_partial`: propext, Classical.choice, Quot.sound
* `Mjinx.Props.C89_new`: propext, Classical.choice, Quot.sound
* `Mjinx.Props.C89_setter`: propext, Classical.choice, Quot.sound
* `Mjinx.Props.C89_bind_com`: propext, Classical.choice, Quot.sound
* `Mjinx.Props.C89_bind_joint_task`: propext, Classical.choice, Quot.sound
* `Mjinx.Props.C89_bind_joint_barrier`: propext, Classical.choice, Quot.sound
* `Mjinx.Props.C89_bind_equality`: propext, Classical.choice, Quot.sound
* `Mjinx.Props.C89_new_problem`: propext, Quot.sound
* `Mjinx.Props.C89_dim`: propext, Classical.choice, Quot.sound
* `Mjinx.Props.C90_position_task_partial`: propext, Classical.choice, Quot.sound
* `Mjinx.Props.C90_com_task`: propext, Classical.choice, Quot.sound
* `Mjinx.Props.C90_frame_task_partial`: propext, Classical.choice, Quot.sound
* `Mjinx.Props.C90_position_barrier_partial`: propext, Classical.choice, Quot.sound
* `Mjinx.Props.C90_long_mask`: propext, Classical.choice, Quot.sound
* `Mjinx.Props.C90_camera`: propext, Classical.choice, Quot.sound
* `Mjinx.Props.C91_control_problem`: propext, Classical.choice, Quot.sound
* `Mjinx.Props.C91_solution`: propext, Classical.choice, Quot.sound
* `Mjinx.Props.C91_real_solution`: propext, Classical.choice, Quot.sound
* `Mjinx.Props.C92_loss`: propext, Classical.choice, Quot.sound
* `Mjinx.Props.C92_step`: propext, Classical.choice, Quot.sound
* `Mjinx.Props.C93_joint_limits`: propext, Classical.choice, Quot.sound
* `Mjinx.Props.C93_tasks_and_limits`: propext, Classical.choice, Quot.sound
* `Mjinx.Props.C94_converges`: propext, Classical.choice, Quot.sound
* `Mjinx.Props.C94_task_and_limits`: propext, Classical.choice, Quot.sound
* `Mjinx.Props.C95_saved`: propext, Classical.choice, Quot.sound
* `Mjinx.Props.C95_not_recording`: propext, Classical.choice, Quot.sound
* `Mjinx.Props.C95_closed`: propext, Classical.choice, Quot.sound
* `Mjinx.Props.C96_control_problem`: propext, Classical.choice, Quot.sound
* `Mjinx.Props.C96_joint_limits`: propext, Classical.choice, Quot.sound
* `Mjinx.Props.C96_converges`: propext, Classical.choice, Quot.sound
* `Mjinx.Props.C96_task_and_limits`: propext, Classical.choice, Quot.sound
* `Mjinx.Props.C97_component`: propext, Classical.choice, Quot.sound
* `Mjinx.Props.C97_all`: propext, Classical.choice, Quot.sound
* `Mjinx.Props.C97_gain`: propext, Classical.choice, Quot.sound
* `Mjinx.Props.C97_problem`: propext, Classical.choice, Quot.sound
* `Mjinx.Props.C98_robot`: propext, Classical.choice, Quot.sound
* `Mjinx.Props.C98_position_limits`: propext, Classical.choice, Quot.sound
* `Mjinx.Props.C99_robot`: propext, Classical.choice, Quot.sound
* `Mjinx.Props.C99_converges`: propext, Classical.choice, Quot.sound
* `Mjinx.Props.C100_joint_limits`: propext, Classical.choice, Quot.sound
* `Mjinx.Props.C101_follows`: propext, Classical.choice, Quot.sound
* `Mjinx.Props.C101_targets`: propext, Classical.choice, Quot.sound
* `Mjinx.Props.C102_component`: propext, Classical.choice, Quot.sound
* `Mjinx.Props.C102_problem`: propext, Classical.choice, Quot.sound
* `Mjinx.Props.C103_attributes`: propext, Classical.choice, Quot.sound
* `Mjinx.Props.C103_copy`: propext, Quot.sound
* `Mjinx.Props.C103_setter`: propext, Classical.choice, Quot.sound
* `Mjinx.Props.C104_motion`: propext, Classical.choice, Quot.sound
* `Mjinx.Props.C105_present`: propext, Classical.choice, Quot.sound
* `Mjinx.Props.C105_shown`: propext, Classical.choice, Quot.sound
* `Mjinx.Props.C105_succeeds`: propext, Classical.choice, Quot.sound
* `Mjinx.Props.C106_distances`: propext, Classical.choice, Quot.sound
* `Mjinx.Props.C106_smallest`: propext, Classical.choice, Quot.sound
* `Mjinx.Props.C106_points_partial`: propext, Classical.choice, Quot.sound
* `Mjinx.Props.C106_points_per_contact`: propext, Classical.choice, Quot.sound
* `Mjinx.Props.C106_refused`: propext, Classical.choice, Quot.sound
* `Mjinx.Props.C107_world`: propext, Classical.choice, Quot.sound
* `Mjinx.Props.C107_local`: propext, Classical.choice, Quot.sound
* `Mjinx.Props.C107_point`: propext, Classical.choice, Quot.sound
* `Mjinx.Props.C108_spheres`: propext, Classical.choice, Quot.sound
* `Mjinx.Props.C108_values`: propext, Classical.choice, Quot.sound
* `Mjinx.Props.C108_apart`: propext, Classical.choice, Quot.sound
* `Mjinx.Props.C109_planes_partial`: propext, Classical.choice, Quot.sound
* `Mjinx.Props.C109_reversed`: propext, Classical.choice, Quot.sound
* `Mjinx.Props.C110_position`: propext, Classical.choice, Quot.sound
* `Mjinx.Props.C110_com`: propext, Classical.choice, Quot.sound
* `Mjinx.Props.C110_position_partial`: propext, Classical.choice, Quot.sound
* `Mjinx.Props.C110_violated`: propext, Classical.choice, Quot.sound
* `Mjinx.Props.C111_spheres`: propext, Classical.choice, Quot.sound
* `Mjinx.Props.C111_spheres_rate`: propext, Classical.choice, Quot.sound
* `Mjinx.Props.C111_planes_partial`: propext, Classical.choice, Quot.sound
* `Mjinx.Props.C111_planes_rate_partial`: propext, Classical.choice, Quot.sound
* `Mjinx.Props.C111_violated`: propext, Classical.choice, Quot.sound
* `Mjinx.Props.C112_spheres`: propext, Classical.choice, Quot.sound
* `Mjinx.Props.C112_floors_partial`: propext, Classical.choice, Quot.sound
* `Mjinx.Props.C113_rows`: propext, Classical.choice, Quot.sound
* `Mjinx.Props.C113_flow`: propext, Classical.choice, Quot.sound
* `Mjinx.Props.C113_steps`: propext, Classical.choice, Quot.sound
* `Mjinx.Props.C114_no_trace`: propext, Classical.choice, Quot.sound
* `Mjinx.Props.C114_reused_name_trace`: propext, Classical.choice, Quot.sound
* `Mjinx.Props.C114_configuration`: propext, Quot.sound
* `Mjinx.Props.C115_values`: propext, Classical.choice, Quot.sound
* `Mjinx.Props.C115_rows_partial`: propext, Classical.choice, Quot.sound
* `Mjinx.Props.C115_listed`: propext, Classical.choice, Quot.sound
* `Mjinx.Props.C115_mixed_differs`: propext, Classical.choice, Quot.sound
* `Mjinx.Props.C116_rows`: propext, Classical.choice, Quot.sound
* `Mjinx.Props.C116_flow`: propext, Classical.choice, Quot.sound
* `Mjinx.Props.C116_steps`: propext, Classical.choice, Quot.sound
* `Mjinx.Props.C117_runs`: propext, Classical.choice, Quot.sound
* `Mjinx.Props.C117_always`: propext, Classical.choice, Quot.sound
* `Mjinx.Props.C117_robot`: propext, Classical.choice, Quot.sound
* `Mjinx.Props.C118_local`: propext, Classical.choice, Quot.sound
* `Mjinx.Props.C118_sizes`: propext, Classical.choice, Quot.sound
* `Mjinx.Props.C118_global`: propext, Classical.choice, Quot.sound
* `Mjinx.Props.C118_calls`: propext, Classical.choice, Quot.sound
* `Mjinx.Props.C118_again`: propext, Classical.choice, Quot.sound
* `Mjinx.Props.C118_robot`: propext, Classical.choice, Quot.sound
* `Mjinx.Props.C119_descent`: propext, Classical.choice, Quot.sound
* `Mjinx.Props.C119_speed`: propext, Classical.choice, Quot.sound
* `Mjinx.Props.C119_misfit`: propext, Classical.choice, Quot.sound
* `Mjinx.Props.C119_damped`: propext, Classical.choice, Quot.sound
* `Mjinx.Props.C119_best_damped`: propext, Classical.choice, Quot.sound
* `Mjinx.Props.C119_best_calmer`: propext, Classical.choice, Quot.sound
* `Mjinx.Props.C119_solution`: propext, Classical.choice, Quot.sound
* `Mjinx.Props.C119_energy`: propext, Classical.choice, Quot.sound
* `Mjinx.Props.C120_best_priority`: propext, Classical.choice, Quot.sound
* `Mjinx.Props.C120_best_limit`: propext, Classical.choice, Quot.sound
* `Mjinx.Props.C120_priority`: propext, Classical.choice, Quot.sound
* `Mjinx.Props.C121_same_rates`: propext, Classical.choice, Quot.sound
* `Mjinx.Props.C121_best`: propext, Classical.choice, Quot.sound
* `Mjinx.Props.C121_nudge`: propext, Classical.choice, Quot.sound
* `Mjinx.Props.C122_component_partial`: propext, Classical.choice, Quot.sound
* `Mjinx.Props.C122_same_command_partial`: propext, Classical.choice, Quot.sound
* `Mjinx.Props.C122_integrate`: propext, Classical.choice, Quot.sound
* `Mjinx.Props.C122_loop_partial`: propext, Classical.choice, Quot.sound
* `Mjinx.Props.C122_frame_wrong`: propext, Classical.choice, Quot.sound
* `Mjinx.Props.C123_columns`: propext, Classical.choice, Quot.sound
* `Mjinx.Props.C123_best_partial`: propext, Classical.choice, Quot.sound
* `Mjinx.Props.C123_program_partial`: propext, Classical.choice, Quot.sound
* `Mjinx.Props.C123_damped_wrong`: propext, Classical.choice, Quot.sound
* `Mjinx.Props.C123_own_value`: propext, Classical.choice, Quot.sound
* `Mjinx.Props.C123_own_jacobian`: propext, Classical.choice, Quot.sound
* `Mjinx.Props.C123_elsewhere`: propext, Classical.choice, Quot.sound
* `Mjinx.Props.C124_rest`: propext, Classical.choice, Quot.sound
* `Mjinx.Props.C124_targets`: propext, Classical.choice, Quot.sound
* `Mjinx.Props.C124_progress`: propext, Classical.choice, Quot.sound
* `Mjinx.Props.C124_standstill`: propext, Classical.choice, Quot.sound
* `Mjinx.Props.C124_stays`: propext, Classical.choice, Quot.sound
* `Mjinx.Props.C125_best_partial`: propext, Classical.choice, Quot.sound
* `Mjinx.Props.C125_calls`: propext, Classical.choice, Quot.sound
* `Mjinx.Props.C125_solves`: propext, Classical.choice, Quot.sound
* `Mjinx.Props.C125_program_partial`: propext, Classical.choice, Quot.sound
* `Mjinx.Props.C125_loop_partial`: propext, Classical.choice, Quot.sound
* `Mjinx.Props.C125_damped_wrong`: propext, Classical.choice, Quot.sound
* `Mjinx.Props.C126_best`: propext, Classical.choice, Quot.sound
* `Mjinx.Props.C126_program`: propext, Classical.choice, Quot.sound
* `Mjinx.Props.C126_loop`: propext, Classical.choice, Quot.sound
