{
 "claims": [
  {
   "property": "C01",
   "status": "proved",
   "theorems": [
    "Simox.Rle.C01_rle_roundtrip",
    "Simox.Rle.C01_rle_roundtrip_empty",
    "Simox.Rle.C01_rle_injective"
   ],
   "note": ""
  },
  {
   "property": "C02",
   "status": "proved",
   "theorems": [
    "Simox.Rle.C02_rle_size_bound",
    "Simox.Rle.C02_rle_min_size"
   ],
   "note": ""
  },
  {
   "property": "C03",
   "status": "proved",
   "theorems": [
    "Simox.Rle.C03_rle_decoder_in_bounds",
    "Simox.Rle.C03_rle_single_byte_overrun",
    "Simox.Rle.C03_rle_never_single_byte"
   ],
   "note": ""
  },
  {
   "property": "C04",
   "status": "proved",
   "theorems": [
    "Simox.Workspace.C04_store_is_a_map",
    "Simox.Workspace.C04_read_after_write",
    "Simox.Workspace.C04_clone_equivalent",
    "Simox.Workspace.C04_oversized_grid_reads_out_of_bounds"
   ],
   "note": "For grids whose position and orientation sizes fit 32 bits; the last theorem shows the condition is needed."
  },
  {
   "property": "C05",
   "status": "proved",
   "theorems": [
    "Simox.Workspace.C05_max_entry_bounds",
    "Simox.Workspace.C05_raw_copy_breaks_bound"
   ],
   "note": "Proved for all histories of the operations named in the property. The raw block copy setDataRot, which is not among them, breaks the bound (counterexample proved)."
  },
  {
   "property": "C06",
   "status": "partial",
   "theorems": [
    "Simox.Workspace.C06_fill_count_partial",
    "Simox.Workspace.C06_zero_write_overcounts"
   ],
   "note": "The full property is false (writing 0 is counted); proved for all histories that store no zero."
  },
  {
   "property": "C07",
   "status": "proved",
   "theorems": [
    "Simox.Workspace.C07_reachable_stays_reachable",
    "Simox.Workspace.C07_min_valid_zero_erases"
   ],
   "note": ""
  },
  {
   "property": "C08",
   "status": "proved",
   "theorems": [
    "Simox.Workspace.C08_hit_counts_exact",
    "Simox.Workspace.C08_hit_counts_saturate"
   ],
   "note": ""
  },
  {
   "property": "C09",
   "status": "proved",
   "theorems": [
    "Simox.Workspace.C09_neighbourhood_write"
   ],
   "note": ""
  },
  {
   "property": "C10",
   "status": "partial",
   "theorems": [
    "Simox.Workspace.C10_max_summed_always_zero",
    "Simox.Workspace.C10_max_summed_wrong",
    "Simox.Workspace.C10_max_summed_partial"
   ],
   "note": "The property is false of the code: the query always answers 0 (proved for every content)."
  },
  {
   "property": "C100",
   "status": "proved",
   "theorems": [
    "Simox.Krn.C100_interpolates",
    "Simox.Krn.C100_range",
    "Simox.Krn.C100_order",
    "Simox.Krn.C100_duplicates"
   ],
   "note": "over the reals: rounding and near singular covariances are not modelled"
  },
  {
   "property": "C101",
   "status": "partial",
   "theorems": [
    "Simox.Krn.C101_combined",
    "Simox.Krn.C101_normals",
    "Simox.Krn.C101_noise_false",
    "Simox.Krn.C101_gaussian"
   ],
   "note": "the gradient for WilliamsPlusKernel (for Minus see C99); the noise reaches only the first quarter of the samples with normal (C101_noise_false); GaussianKernel throws (C101_gaussian)"
  },
  {
   "property": "C102",
   "status": "partial",
   "theorems": [
    "Simox.Grv.C102_sum",
    "Simox.Grv.C102_energy",
    "Simox.Grv.C102_map",
    "Simox.Grv.C102_constructor",
    "Simox.Grv.C102_names_false"
   ],
   "note": "for trees in which no two objects have the same name; a sensor with the name of a link attached to the same node makes the torque zero (C102_names_false). The masses must not change after construction (not modelled)"
  },
  {
   "property": "C103",
   "status": "proved",
   "theorems": [
    "Simox.Cst.C103_position",
    "Simox.Cst.C103_orientation",
    "Simox.Cst.C103_com",
    "Simox.Cst.C103_reference",
    "Simox.Cst.C103_limits",
    "Simox.Cst.C103_middle",
    "Simox.Cst.C103_set"
   ],
   "note": "the orientation where the angle to the target is strictly between 0 and pi"
  },
  {
   "property": "C104",
   "status": "partial",
   "theorems": [
    "Simox.Cst.C104_pose_orientation",
    "Simox.Cst.C104_pose_position_partial",
    "Simox.Cst.C104_pose_position_false",
    "Simox.Cst.C104_balance_partial",
    "Simox.Cst.C104_balance_false",
    "Simox.Cst.C104_balance_bodies_false",
    "Simox.Cst.C104_tsr_partial",
    "Simox.Cst.C104_tsr_false"
   ],
   "note": "false as stated (C104_pose_position_false, C104_balance_false, C104_balance_bodies_false, C104_tsr_false); the orientation part of the region is not treated"
  },
  {
   "property": "C105",
   "status": "partial",
   "theorems": [
    "Simox.Cst.C105_position_value",
    "Simox.Cst.C105_orientation_value",
    "Simox.Cst.C105_position_check_partial",
    "Simox.Cst.C105_position_check_single",
    "Simox.Cst.C105_position_check_false",
    "Simox.Cst.C105_orientation_check",
    "Simox.Cst.C105_unnamed",
    "Simox.Cst.C105_pose_check",
    "Simox.Cst.C105_com",
    "Simox.Cst.C105_com_target_false",
    "Simox.Cst.C105_tsr_position",
    "Simox.Cst.C105_balance",
    "Simox.Cst.C105_balance_mono"
   ],
   "note": "the check of a single coordinate has no absolute value (C105_position_check_false, what it does is C105_position_check_single); updateTarget of the centre-of-mass constraint has no effect on value and check (C105_com_target_false)"
  },
  {
   "property": "C106",
   "status": "partial",
   "theorems": [
    "Simox.Cst.C106_solve",
    "Simox.Cst.C106_refused",
    "Simox.Cst.C106_start",
    "Simox.Cst.C106_start_initial",
    "Simox.Cst.C106_evaluate_partial",
    "Simox.Cst.C106_evaluate_false",
    "Simox.Cst.C106_objective_partial",
    "Simox.Cst.C106_objective_false",
    "Simox.Cst.C106_flags_false",
    "Simox.Cst.C106_start_false"
   ],
   "note": "false: the gradient is scaled and normalised (C106_objective_false), the record of the configuration is wrong when the robot is moved from outside (C106_evaluate_false), an exception leaves the updates switched off (C106_flags_false), random starts can leave the limits if the robot was outside (C106_start_false). The joints of the set drive no others"
  },
  {
   "property": "C107",
   "status": "partial",
   "theorems": [
    "Simox.Cst.C107_constraints_partial",
    "Simox.Cst.C107_constraints_false",
    "Simox.Cst.C107_solve",
    "Simox.Cst.C107_stepwise",
    "Simox.Cst.C107_already_false",
    "Simox.Cst.C107_initialize",
    "Simox.Cst.C107_step",
    "Simox.Cst.C107_stacked",
    "Simox.Cst.C107_restart_false"
   ],
   "note": "false for constraints added twice (C107_constraints_false), for goals reached before the first step (C107_already_false) and for a second run (C107_restart_false)"
  },
  {
   "property": "C108",
   "status": "partial",
   "theorems": [
    "Simox.Gpl.C108_infos",
    "Simox.Gpl.C108_basic",
    "Simox.Gpl.C108_points_false",
    "Simox.Gpl.C108_length"
   ],
   "note": "false for the overload with contact points: it drops all of them (C108_points_false)"
  },
  {
   "property": "C109",
   "status": "partial",
   "theorems": [
    "Simox.Gpl.C109_cone",
    "Simox.Gpl.C109_coulomb_partial",
    "Simox.Gpl.C109_coulomb_false",
    "Simox.Gpl.C109_reported",
    "Simox.Gpl.C109_friction_false"
   ],
   "note": "proved for coefficients of at least 1 and with the angle 45 degrees; false in general: the radius is computed with the cosine instead of the sine, so the cone does not depend on the coefficient (C109_coulomb_false, C109_friction_false)"
  },
  {
   "property": "C11",
   "status": "proved",
   "theorems": [
    "Simox.Planning.C11_pool_never_hands_out_twice",
    "Simox.Planning.C11_double_removal_hands_out_twice"
   ],
   "note": "Holds for clients that remove only nodes they hold; the second theorem shows the side condition is needed."
  },
  {
   "property": "C110",
   "status": "partial",
   "theorems": [
    "Simox.Gpl.C110_wrenches",
    "Simox.Gpl.C110_closure",
    "Simox.Gpl.C110_nohull_false",
    "Simox.Gpl.C110_touching_false"
   ],
   "note": "up to the tolerance 1e-4 of the code; false if no hull can be computed (C110_nohull_false) and for contacts whose points coincide (C110_touching_false)"
  },
  {
   "property": "C111",
   "status": "partial",
   "theorems": [
    "Simox.Gpl.C111_hull",
    "Simox.Gpl.C111_offset",
    "Simox.Gpl.C111_quality",
    "Simox.Gpl.C111_volume",
    "Simox.Gpl.C111_not_normalized_false",
    "Simox.Gpl.C111_origin_false"
   ],
   "note": "the ball is around the mean of the vertices of the hull, not around the origin (C111_origin_false); the measure that is not normalised is always FLT_MAX (C111_not_normalized_false)"
  },
  {
   "property": "C112",
   "status": "partial",
   "theorems": [
    "Simox.Gpl.C112_closure",
    "Simox.Gpl.C112_quality_partial",
    "Simox.Gpl.C112_stale_false",
    "Simox.Gpl.C112_twice",
    "Simox.Gpl.C112_volume_false"
   ],
   "note": "force closure in full; quality and volume for histories that leave contacts and given object values; false without contacts (C112_stale_false) and for the volume before the quality was asked for (C112_volume_false)"
  },
  {
   "property": "C113",
   "status": "proved",
   "theorems": [
    "Simox.Gpl.C113_samples",
    "Simox.Gpl.C113_reference"
   ],
   "note": ""
  },
  {
   "property": "C114",
   "status": "partial",
   "theorems": [
    "Simox.Gpn.C114_point_on_face",
    "Simox.Gpn.C114_direction",
    "Simox.Gpn.C114_approach_pose",
    "Simox.Gpn.C114_move_away_partial",
    "Simox.Gpn.C114_move_away_false",
    "Simox.Gpn.C114_new_pose_partial",
    "Simox.Gpn.C114_new_pose_false",
    "Simox.Gpn.C114_no_face",
    "Simox.Gpn.C114_face_areas_false",
    "Simox.Gpn.C114_object_pose_false"
   ],
   "note": "hands without a preshape with its own tool centre point, no random distance; false otherwise (C114_move_away_false, C114_new_pose_false), for objects that are not at the origin (C114_object_pose_false) and for the choice by area (C114_face_areas_false)"
  },
  {
   "property": "C115",
   "status": "partial",
   "theorems": [
    "Simox.Gpn.C115_grasp_is_good",
    "Simox.Gpn.C115_outcome",
    "Simox.Gpn.C115_plan",
    "Simox.Gpn.C115_plan_ends",
    "Simox.Gpn.C115_timeout_false",
    "Simox.Gpn.C115_evaluation",
    "Simox.Gpn.C115_names_partial",
    "Simox.Gpn.C115_names_false",
    "Simox.Gpn.C115_reported_demands_false",
    "Simox.Gpn.C115_retreat_partial",
    "Simox.Gpn.C115_report"
   ],
   "note": "false: a time-out of 0 plans nothing (C115_timeout_false), names can coincide (C115_names_false), the reported demands can be stale (C115_reported_demands_false)"
  },
  {
   "property": "C116",
   "status": "partial",
   "theorems": [
    "Simox.Gpn.C116_grid",
    "Simox.Gpn.C116_default_count",
    "Simox.Gpn.C116_factors",
    "Simox.Gpn.C116_grid_ends_false",
    "Simox.Gpn.C116_random",
    "Simox.Gpn.C116_undisturbed",
    "Simox.Gpn.C116_grid_center_partial",
    "Simox.Gpn.C116_grid_center_false",
    "Simox.Gpn.C116_contacts"
   ],
   "note": "false for the grid around turned objects (C116_grid_center_false); the grid does not end without a positive step (C116_grid_ends_false)"
  },
  {
   "property": "C117",
   "status": "partial",
   "theorems": [
    "Simox.Gpn.C117_statistics",
    "Simox.Gpn.C117_collisions",
    "Simox.Gpn.C117_restored",
    "Simox.Gpn.C117_independent_partial",
    "Simox.Gpn.C117_stale_false",
    "Simox.Gpn.C117_grasp_partial",
    "Simox.Gpn.C117_grasp_false"
   ],
   "note": "false for poses without contacts, which get the quality of the pose before (C117_stale_false), and for grasps without contacts, which are left applied (C117_grasp_false)"
  },
  {
   "property": "C118",
   "status": "partial",
   "theorems": [
    "Simox.Wsg.C118_new",
    "Simox.Wsg.C118_history",
    "Simox.Wsg.C118_queries",
    "Simox.Wsg.C118_partition",
    "Simox.Wsg.C118_below_false",
    "Simox.Wsg.C118_neighbours_false",
    "Simox.Wsg.C118_found_false"
   ],
   "note": "false for positions up to one cell below the grid (C118_below_false), for the neighbours of cells at the border (C118_neighbours_false) and for the result of getEntry in empty cells (C118_found_false)"
  },
  {
   "property": "C119",
   "status": "partial",
   "theorems": [
    "Simox.Wsg.C119_random",
    "Simox.Wsg.C119_position_partial",
    "Simox.Wsg.C119_position_false"
   ],
   "note": "the position belongs to the drawn cell only in the lower half of the grid (C119_position_partial), it can be outside of the grid (C119_position_false)"
  },
  {
   "property": "C12",
   "status": "proved",
   "theorems": [
    "Simox.Planning.C12_tree_lookups_consistent",
    "Simox.Planning.C12_append_effect",
    "Simox.Planning.C12_remove_effect"
   ],
   "note": "Any number of trees on one C-space, any history of append/remove/reset/resetAll."
  },
  {
   "property": "C120",
   "status": "partial",
   "theorems": [
    "Simox.Wsg.C120_worst_partial",
    "Simox.Wsg.C120_last_false",
    "Simox.Wsg.C120_areas_false",
    "Simox.Wsg.C120_negative_false"
   ],
   "note": "grids of the same format and area that ends above 0, except for the last rows; false for the last rows (C120_last_false), other areas (C120_areas_false) and negative positions (C120_negative_false)"
  },
  {
   "property": "C121",
   "status": "partial",
   "theorems": [
    "Simox.Msh.C121_points",
    "Simox.Msh.C121_unique",
    "Simox.Msh.C121_corners",
    "Simox.Msh.C121_add_box",
    "Simox.Msh.C121_transform",
    "Simox.Msh.C121_scale_partial",
    "Simox.Msh.C121_scale_false",
    "Simox.Msh.C121_inside_partial",
    "Simox.Msh.C121_inside_false",
    "Simox.Msh.C121_plane",
    "Simox.Msh.C121_plane_empty_false"
   ],
   "note": "scale for non-negative factors and isInside for boxes that are not flat only: C121_scale_false, C121_inside_false; planeGoesThrough of an empty box: C121_plane_empty_false"
  },
  {
   "property": "C122",
   "status": "partial",
   "theorems": [
    "Simox.Msh.C122_ids",
    "Simox.Msh.C122_add_triangle",
    "Simox.Msh.C122_triangles",
    "Simox.Msh.C122_normal",
    "Simox.Msh.C122_add_mesh",
    "Simox.Msh.C122_add_uncoloured_false",
    "Simox.Msh.C122_nan_false",
    "Simox.Msh.C122_clear_partial",
    "Simox.Msh.C122_clear_false",
    "Simox.Msh.C122_set_color_partial",
    "Simox.Msh.C122_set_color_false",
    "Simox.Msh.C122_unused",
    "Simox.Msh.C122_unused_invalid_false",
    "Simox.Msh.C122_box_false",
    "Simox.Msh.C122_box_partial",
    "Simox.Msh.C122_history"
   ],
   "note": "false for points with NaN, addMesh without colours, clear, setColor and the box after vertices were removed or moved (the theorems with _false)"
  },
  {
   "property": "C123",
   "status": "partial",
   "theorems": [
    "Simox.Msh.C123_merge",
    "Simox.Msh.C123_merge_partial",
    "Simox.Msh.C123_merge_false"
   ],
   "note": "in general only chains of such steps (C123_merge); as stated if the distance is transitive on the vertices (C123_merge_partial), false otherwise (C123_merge_false); the kd-tree is assumed to find the vertices in the radius"
  },
  {
   "property": "C124",
   "status": "partial",
   "theorems": [
    "Simox.Msh.C124_missing_normals_partial",
    "Simox.Msh.C124_missing_normals_false",
    "Simox.Msh.C124_missing_colors",
    "Simox.Msh.C124_color_count_false",
    "Simox.Msh.C124_flip",
    "Simox.Msh.C124_flip_false",
    "Simox.Msh.C124_fatten_partial",
    "Simox.Msh.C124_fatten_nan_false"
   ],
   "note": "false for faces with a normal at the first corner only, for the colours of flipped faces and for collapsed triangles (the theorems with _false)"
  },
  {
   "property": "C125",
   "status": "partial",
   "theorems": [
    "Simox.Msh.C125_kept",
    "Simox.Msh.C125_consistent",
    "Simox.Msh.C125_orient_partial",
    "Simox.Msh.C125_inverted_false",
    "Simox.Msh.C125_order_false"
   ],
   "note": "orientable meshes of which every face but the first touches an earlier one (C125_orient_partial); false for other orders (C125_order_false) and with inverted (C125_inverted_false)"
  },
  {
   "property": "C126",
   "status": "proved",
   "theorems": [
    "Simox.Msh.C126_box_surface",
    "Simox.Msh.C126_box_outward",
    "Simox.Msh.C126_box_closed",
    "Simox.Msh.C126_box_mesh",
    "Simox.Msh.C126_grid",
    "Simox.Msh.C126_areas",
    "Simox.Msh.C126_com",
    "Simox.Msh.C126_size",
    "Simox.Msh.C126_scale"
   ],
   "note": ""
  },
  {
   "property": "C127",
   "status": "proved",
   "theorems": [
    "Simox.Tot.C127_line",
    "Simox.Tot.C127_blend",
    "Simox.Tot.C127_deviation",
    "Simox.Tot.C127_no_corner",
    "Simox.Tot.C127_switching"
   ],
   "note": ""
  },
  {
   "property": "C128",
   "status": "partial",
   "theorems": [
    "Simox.Tot.C128_lookup",
    "Simox.Tot.C128_near",
    "Simox.Tot.C128_end",
    "Simox.Tot.C128_polyline",
    "Simox.Tot.C128_smooth",
    "Simox.Tot.C128_switching",
    "Simox.Tot.C128_next",
    "Simox.Tot.C128_start_false"
   ],
   "note": "for waypoints at which the direction is not reversed exactly; start and continuity only for waypoints that are more than two millionths apart (C128_start_false) and up to millionths"
  },
  {
   "property": "C129",
   "status": "proved",
   "theorems": [
    "Simox.Tot.C129_velocity",
    "Simox.Tot.C129_acceleration",
    "Simox.Tot.C129_acceleration_velocity",
    "Simox.Tot.C129_derivative"
   ],
   "note": ""
  },
  {
   "property": "C13",
   "status": "proved",
   "theorems": [
    "Simox.Planning.C13_create_path_correct",
    "Simox.Planning.C13_removal_can_create_cycle"
   ],
   "note": "Proved for all trees built by appends and resets (the quantifier of the property). The second theorem shows the restriction is needed: after removal of a single node createPath may never terminate."
  },
  {
   "property": "C130",
   "status": "partial",
   "theorems": [
    "Simox.Tot.Gen.C130_forward",
    "Simox.Tot.Gen.C130_backward",
    "Simox.Tot.Gen.C130_backward_safe",
    "Simox.Tot.Gen.C130_ends",
    "Simox.Tot.Gen.C130_joints",
    "Simox.Tot.C130_corner_false",
    "Simox.Tot.Gen.C130_meet",
    "Simox.Tot.Gen.C130_meet_complete",
    "Simox.Tot.Gen.C130_step"
   ],
   "note": "nothing is proved about the limits at the steps made backward (the program does not check them), about termination, and about the search for switching points; corners without rounding are passed at any speed (C130_corner_false)"
  },
  {
   "property": "C131",
   "status": "partial",
   "theorems": [
    "Simox.Tot.C131_cache",
    "Simox.Tot.C131_history",
    "Simox.Tot.C131_negative_false",
    "Simox.Tot.C131_motion",
    "Simox.Tot.C131_after_end_false"
   ],
   "note": "for steps with increasing positions and speeds that are not negative; times before the beginning are undefined behaviour (C131_negative_false), after the duration the robot moves back (C131_after_end_false)"
  },
  {
   "property": "C132",
   "status": "proved",
   "theorems": [
    "Simox.Rio.C132_recognised",
    "Simox.Rio.C132_unique",
    "Simox.Rio.C132_convert",
    "Simox.Rio.C132_other",
    "Simox.Rio.C132_attribute",
    "Simox.Rio.C132_case",
    "Simox.Rio.C132_has",
    "Simox.Rio.C132_single"
   ],
   "note": ""
  },
  {
   "property": "C133",
   "status": "proved",
   "theorems": [
    "Simox.Rio.C133_translation",
    "Simox.Rio.C133_rpy",
    "Simox.Rio.C133_quat",
    "Simox.Rio.C133_dh",
    "Simox.Rio.C133_matrix4",
    "Simox.Rio.C133_matrix3",
    "Simox.Rio.C133_unknown",
    "Simox.Rio.C133_product",
    "Simox.Rio.C133_rigid",
    "Simox.Rio.C133_node",
    "Simox.Rio.C133_second_false",
    "Simox.Rio.C133_units_false",
    "Simox.Rio.C133_roundtrip"
   ],
   "note": "a second Transform of a node is ignored (C133_second_false); a translation with only a unit of an angle is refused (C133_units_false)"
  },
  {
   "property": "C134",
   "status": "partial",
   "theorems": [
    "Simox.Rio.C134_both",
    "Simox.Rio.C134_no_unit",
    "Simox.Rio.C134_limitless",
    "Simox.Rio.C134_missing_partial",
    "Simox.Rio.C134_missing_hi_false",
    "Simox.Rio.C134_missing_lo_false",
    "Simox.Rio.C134_unknown_unit_false",
    "Simox.Rio.C134_limitless_case_false",
    "Simox.Rio.C134_start"
   ],
   "note": "missing limits only beside limits in radian or millimeters: otherwise the unit is forgotten (C134_missing_lo_false) or the wrong limit is set (C134_missing_hi_false); unknown units are accepted (C134_unknown_unit_false)"
  },
  {
   "property": "C135",
   "status": "partial",
   "theorems": [
    "Simox.Rio.C135_velocity",
    "Simox.Rio.C135_acceleration",
    "Simox.Rio.C135_torque_partial",
    "Simox.Rio.C135_torque_false",
    "Simox.Rio.C135_mass",
    "Simox.Rio.C135_com",
    "Simox.Rio.C135_inertia",
    "Simox.Rio.C135_physics",
    "Simox.Rio.C135_configuration_partial",
    "Simox.Rio.C135_configuration_false"
   ],
   "note": "torques in newton millimeters are a million times too large (C135_torque_false), joint values in meters a million times too small (C135_configuration_false)"
  },
  {
   "property": "C136",
   "status": "proved",
   "theorems": [
    "Simox.Rio.C136_numbers",
    "Simox.Rio.C136_nodes",
    "Simox.Rio.C136_configuration",
    "Simox.Rio.C136_joint",
    "Simox.Rio.C136_types"
   ],
   "note": ""
  },
  {
   "property": "C137",
   "status": "partial",
   "theorems": [
    "Simox.Rio.C137_structure",
    "Simox.Rio.C137_accepted",
    "Simox.Rio.C137_document_partial",
    "Simox.Rio.C137_addresses_false",
    "Simox.Rio.C137_tree_partial",
    "Simox.Rio.C137_cycle_false",
    "Simox.Rio.C137_root_false"
   ],
   "note": "structure of the document only if no node is listed twice: otherwise it depends on addresses (C137_addresses_false); one tree only without cycles, which are accepted (C137_cycle_false, C137_root_false)"
  },
  {
   "property": "C138",
   "status": "partial",
   "theorems": [
    "Simox.Rio.C138_distinct",
    "Simox.Rio.C138_given",
    "Simox.Rio.C138_types_false",
    "Simox.Rio.C138_threads_false"
   ],
   "note": "for robots of the same type loaded one after the other; different types can collide (C138_types_false), and so can two threads (C138_threads_false)"
  },
  {
   "property": "C139",
   "status": "partial",
   "theorems": [
    "Simox.Rfc.C139_structure",
    "Simox.Rfc.C139_unknown",
    "Simox.Rfc.C139_links_partial",
    "Simox.Rfc.C139_serial",
    "Simox.Rfc.C139_mass",
    "Simox.Rfc.C139_branch_false",
    "Simox.Rfc.C139_shape_false",
    "Simox.Rfc.C139_mass_false",
    "Simox.Rfc.C139_chain"
   ],
   "note": "poses only if the joints on the way to the new root have no other branches behind them, or are at rest: otherwise the branches move with the wrong body (C139_branch_false); the shape and the mass of the new root are lost (C139_shape_false, C139_mass_false)"
  },
  {
   "property": "C14",
   "status": "proved",
   "theorems": [
    "Simox.Planning.C14_nearest_is_nearest"
   ],
   "note": "Distances in any linear order."
  },
  {
   "property": "C140",
   "status": "partial",
   "theorems": [
    "Simox.Rfc.C140_structure",
    "Simox.Rfc.C140_unknown",
    "Simox.Rfc.C140_sets",
    "Simox.Rfc.C140_scaled_partial",
    "Simox.Rfc.C140_poses",
    "Simox.Rfc.C140_clone",
    "Simox.Rfc.C140_prismatic_false",
    "Simox.Rfc.C140_dh_false"
   ],
   "note": "scaled copies only without translational joints, whose motion is not scaled (C140_prismatic_false); nodes whose Denavit-Hartenberg parameters still describe them, which is false after another root was chosen (C140_dh_false)"
  },
  {
   "property": "C141",
   "status": "partial",
   "theorems": [
    "Simox.Rfc.C141_partial",
    "Simox.Rfc.C141_base_false",
    "Simox.Rfc.C141_between_false"
   ],
   "note": "robots at the origin, and chains where the frame in front of a node commutes with the frame of the node of the chain before it, for example if it is that node: otherwise the base is applied twice (C141_base_false) and the transformation in between has the wrong order (C141_between_false)"
  },
  {
   "property": "C142",
   "status": "partial",
   "theorems": [
    "Simox.Stl.C142_binary",
    "Simox.Stl.C142_truncated_false"
   ],
   "note": "complete files, corners compared exactly: a file that ends too early is read without an error, from memory that was never written (C142_truncated_false)"
  },
  {
   "property": "C143",
   "status": "partial",
   "theorems": [
    "Simox.Stl.C143_binary",
    "Simox.Stl.C143_text",
    "Simox.Stl.C143_many_false",
    "Simox.Stl.C143_short_false"
   ],
   "note": "binary files with less than 2^31 triangles, and other files of at least 84 bytes: larger ones are taken for text (C143_many_false), shorter ones end in an exception (C143_short_false)"
  },
  {
   "property": "C144",
   "status": "partial",
   "theorems": [
    "Simox.Stl.C144_text_partial",
    "Simox.Stl.C144_name_false"
   ],
   "note": "lines outside of facets contain neither `normal` nor `outer`: a solid whose name contains `outer` loses its first triangle (C144_name_false)"
  },
  {
   "property": "C145",
   "status": "partial",
   "theorems": [
    "Simox.Mjc.C145_bodies_partial",
    "Simox.Mjc.C145_meshes_partial",
    "Simox.Mjc.C145_parents",
    "Simox.Mjc.C145_pairs",
    "Simox.Mjc.C145_values_false"
   ],
   "note": "robots whose joint values are zero while they are exported: the transformations are taken at the present joint values (C145_values_false)"
  },
  {
   "property": "C146",
   "status": "proved",
   "theorems": [
    "Simox.Mjc.C146_mass",
    "Simox.Mjc.C146_unchanged"
   ],
   "note": "a body has a mass if it has a geom or an inertial, as in the code"
  },
  {
   "property": "C147",
   "status": "partial",
   "theorems": [
    "Simox.Mjc.C147_motion_partial",
    "Simox.Mjc.C147_robot_partial",
    "Simox.Mjc.C147_shifts_partial",
    "Simox.Mjc.C147_order_false",
    "Simox.Mjc.C147_site_false"
   ],
   "note": "if poses of bodies that are merged one after the other commute, for example shifts: they are multiplied in the wrong order (C147_order_false); sites in bodies that are merged move with the joint of the other body (C147_site_false)"
  },
  {
   "property": "C148",
   "status": "partial",
   "theorems": [
    "Simox.Mjc.C148_names_partial",
    "Simox.Mjc.C148_unmerged",
    "Simox.Mjc.C148_excludes",
    "Simox.Mjc.C148_names_false",
    "Simox.Mjc.C148_site_false",
    "Simox.Mjc.C148_again_false"
   ],
   "note": "if no body is merged with more than one other, and for the first document of an exporter: otherwise the name is one of no body (C148_names_false, C148_site_false, C148_again_false)"
  },
  {
   "property": "C149",
   "status": "partial",
   "theorems": [
    "Simox.Mjc.C149_scale_partial",
    "Simox.Mjc.C149_limits",
    "Simox.Mjc.C149_joint_false"
   ],
   "note": "if joints are at the origins of their bodies: the places of joints, which merged joints have, are not scaled (C149_joint_false)"
  },
  {
   "property": "C15",
   "status": "partial",
   "theorems": [
    "Simox.Planning.C15_reset_releases_nothing",
    "Simox.Planning.C15_full_tree_reset_exhausts",
    "Simox.Planning.C15_release_partial"
   ],
   "note": "The property is false for CSpaceTree::reset (proved: nothing is released, capacity can be exhausted with all trees empty). It holds for removal of single nodes and for a C-space reset."
  },
  {
   "property": "C150",
   "status": "partial",
   "theorems": [
    "Simox.Mjc.C150_actuators",
    "Simox.Mjc.C150_range_partial",
    "Simox.Mjc.C150_range_false"
   ],
   "note": "the range for hinges: the ranges of actuators are not scaled with those of slides (C150_range_false)"
  },
  {
   "property": "C151",
   "status": "proved",
   "theorems": [
    "Simox.Ctl.C151_output",
    "Simox.Ctl.C151_new",
    "Simox.Ctl.C151_gains"
   ],
   "note": "numbers are exact"
  },
  {
   "property": "C152",
   "status": "partial",
   "theorems": [
    "Simox.Ctl.C152_diagram_partial",
    "Simox.Ctl.C152_forgets",
    "Simox.Ctl.C152_torque_false"
   ],
   "note": "for the modes that have a diagram: with position and torque, or velocity and torque, the torque has no effect (C152_torque_false)"
  },
  {
   "property": "C153",
   "status": "partial",
   "theorems": [
    "Simox.Ctl.C153_limit",
    "Simox.Ctl.C153_acceleration",
    "Simox.Ctl.C153_free",
    "Simox.Ctl.C153_settles",
    "Simox.Ctl.C153_current_false",
    "Simox.Ctl.C153_stale_false",
    "Simox.Ctl.C153_jerk_false"
   ],
   "note": "velocity and acceleration, with no velocity beyond the limit set from outside (C153_current_false): the jerk is not limited (C153_jerk_false), and errors of positions are not forgotten (C153_stale_false)"
  },
  {
   "property": "C154",
   "status": "partial",
   "theorems": [
    "Simox.Ctl.C154_approach_partial",
    "Simox.Ctl.C154_rate_partial",
    "Simox.Ctl.C154_overshoot_false"
   ],
   "note": "controllers with a proportional gain only, as the constructor makes them, without a limit of accelerations: with one, the joint passes its position (C154_overshoot_false)"
  },
  {
   "property": "C155",
   "status": "partial",
   "theorems": [
    "Simox.Hst.C155_bins_partial",
    "Simox.Hst.C155_total",
    "Simox.Hst.C155_data_partial",
    "Simox.Hst.C155_data_false",
    "Simox.Hst.C155_below_false"
   ],
   "note": "values within the limits: values below the lower one are undefined (C155_below_false), and data that are all equal, or none (C155_data_false)"
  },
  {
   "property": "C156",
   "status": "partial",
   "theorems": [
    "Simox.Hst.C156_edges",
    "Simox.Hst.C156_extremes",
    "Simox.Hst.C156_median_false",
    "Simox.Hst.C156_median_partial",
    "Simox.Hst.C156_least_false",
    "Simox.Hst.C156_centre_false"
   ],
   "note": "the filter with an empty neighbourhood only: for all others it is undefined (C156_median_false); the value of the bin with the fewest points is that of the one with the most (C156_least_false), and values are not the centres (C156_centre_false)"
  },
  {
   "property": "C157",
   "status": "partial",
   "theorems": [
    "Simox.Clr.C157_found",
    "Simox.Clr.C157_between",
    "Simox.Clr.C157_key",
    "Simox.Clr.C157_range",
    "Simox.Clr.C157_types",
    "Simox.Clr.C157_equal_false"
   ],
   "note": "keys at different positions: between two keys at the same position the colour is black and transparent (C157_equal_false)"
  },
  {
   "property": "C158",
   "status": "partial",
   "theorems": [
    "Simox.Clr.C158_custom_partial",
    "Simox.Clr.C158_single",
    "Simox.Clr.C158_round_false"
   ],
   "note": "exact arithmetic: with single precision the last of 11 colours is lost and the map has no colour at 1 (C158_round_false)"
  },
  {
   "property": "C159",
   "status": "partial",
   "theorems": [
    "Simox.Sph.C159_graph",
    "Simox.Sph.C159_project",
    "Simox.Sph.C159_index",
    "Simox.Sph.C159_reuse_false"
   ],
   "note": "the lists of faces are right in new results only (C159_reuse_false)"
  },
  {
   "property": "C16",
   "status": "proved",
   "theorems": [
    "Simox.Trajectory.C16_insert",
    "Simox.Trajectory.C16_insert_many",
    "Simox.Trajectory.C16_insert_trajectory",
    "Simox.Trajectory.C16_append_self",
    "Simox.Trajectory.C16_insert_self_wrong",
    "Simox.Trajectory.C16_remove",
    "Simox.Trajectory.C16_slices",
    "Simox.Trajectory.C16_reverse",
    "Simox.Trajectory.C16_no_invented_points"
   ],
   "note": "insertTrajectory with the receiver itself as argument is wrong (witness proved)."
  },
  {
   "property": "C160",
   "status": "partial",
   "theorems": [
    "Simox.Sph.C160_cover_partial",
    "Simox.Sph.C160_base",
    "Simox.Sph.C160_octahedron",
    "Simox.Sph.C160_small_false"
   ],
   "note": "as long as no two different directions are taken for the same, which is proved for undivided polyhedra and the octahedron divided once; very small spheres are never divided (C160_small_false)"
  },
  {
   "property": "C161",
   "status": "partial",
   "theorems": [
    "Simox.Sph.C161_found",
    "Simox.Sph.C161_closest",
    "Simox.Sph.C161_short_false",
    "Simox.Sph.C161_ray"
   ],
   "note": "vectors that are not too short: for others the first vertex is found (C161_short_false)"
  },
  {
   "property": "C162",
   "status": "partial",
   "theorems": [
    "Simox.Sph.C162_add",
    "Simox.Sph.C162_remove",
    "Simox.Sph.C162_ids",
    "Simox.Sph.C162_ids_false",
    "Simox.Sph.C162_once",
    "Simox.Sph.C162_pick",
    "Simox.Sph.C162_none",
    "Simox.Sph.C162_missed_false",
    "Simox.Sph.C162_face",
    "Simox.Sph.C162_face_none"
   ],
   "note": "that a face is always found is not proved; ids one too large are accepted (C162_ids_false), and nodes can be missed because faces without nodes go on being drawn (C162_missed_false)"
  },
  {
   "property": "C163",
   "status": "partial",
   "theorems": [
    "Simox.Dyn.C163_enabled",
    "Simox.Dyn.C163_object",
    "Simox.Dyn.C163_symmetric",
    "Simox.Dyn.C163_reset",
    "Simox.Dyn.C163_self",
    "Simox.Dyn.C163_self_false"
   ],
   "note": "switching self collisions off and on does not bring the pairs back that were off before (C163_self_false)"
  },
  {
   "property": "C164",
   "status": "partial",
   "theorems": [
    "Simox.Dyn.C164_lists",
    "Simox.Dyn.C164_object",
    "Simox.Dyn.C164_find",
    "Simox.Dyn.C164_robot",
    "Simox.Dyn.C164_add_robot",
    "Simox.Dyn.C164_remove_robot",
    "Simox.Dyn.C164_rejected_false",
    "Simox.Dyn.C164_remove_false"
   ],
   "note": "a second wrapper of the same robot is rejected after its bodies were added (C164_rejected_false); removing a robot switches on pairs that the user had switched off (C164_remove_false)"
  },
  {
   "property": "C165",
   "status": "partial",
   "theorems": [
    "Simox.Dyn.C165_attach",
    "Simox.Dyn.C165_links",
    "Simox.Dyn.C165_detach_partial",
    "Simox.Dyn.C165_not_attached",
    "Simox.Dyn.C165_twice_false",
    "Simox.Dyn.C165_detach_false"
   ],
   "note": "an object attached twice cannot be detached without an error (C165_twice_false), and detaching switches on a pair that was off before (C165_detach_false)"
  },
  {
   "property": "C166",
   "status": "partial",
   "theorems": [
    "Simox.Dyn.C166_target",
    "Simox.Dyn.C166_last",
    "Simox.Dyn.C166_undefined",
    "Simox.Dyn.C166_stop_false",
    "Simox.Dyn.C166_controllers"
   ],
   "note": "the behaviour is undefined exactly if a joint without a target is told to move with a velocity of almost zero (C166_undefined, C166_stop_false)"
  },
  {
   "property": "C167",
   "status": "partial",
   "theorems": [
    "Simox.Dyn.C167_torque_partial",
    "Simox.Dyn.C167_torque_false",
    "Simox.Dyn.C167_impulse",
    "Simox.Dyn.C167_speed",
    "Simox.Dyn.C167_acceleration",
    "Simox.Dyn.C167_integrate",
    "Simox.Dyn.C167_hold_partial",
    "Simox.Dyn.C167_offset_false",
    "Simox.Dyn.C167_off",
    "Simox.Dyn.C167_limits",
    "Simox.Dyn.C167_throws",
    "Simox.Dyn.C167_throws_false"
   ],
   "note": "without a maximal torque every torque acts in the wrong direction (C167_torque_false); with a joint value offset a joint does not rest at its target (C167_offset_false); a target beyond the limits is ignored (C167_limits); a torque for a joint without a link makes all steps throw (C167_throws_false)"
  },
  {
   "property": "C168",
   "status": "proved",
   "theorems": [
    "Simox.Dyn.C168_poses",
    "Simox.Dyn.C168_missing_false"
   ],
   "note": "for robots whose parents are nodes of the robot; otherwise the loop gives up (C168_missing_false)"
  },
  {
   "property": "C169",
   "status": "proved",
   "theorems": [
    "Simox.Rrt.C169_solution",
    "Simox.Rrt.C169_path",
    "Simox.Rrt.C169_no_goal",
    "Simox.Rrt.C169_failed_plan_bridges"
   ],
   "note": "for plan; after a failed plan getSolution may return a path that was never checked (C169_failed_plan_bridges)"
  },
  {
   "property": "C17",
   "status": "proved",
   "theorems": [
    "Simox.Trajectory.C17_endpoints",
    "Simox.Trajectory.C17_fraction",
    "Simox.Trajectory.C17_zero_length_index",
    "Simox.Trajectory.C17_on_path",
    "Simox.Trajectory.C17_lipschitz",
    "Simox.Trajectory.C17_reverse"
   ],
   "note": "Trajectory::interpolate in exact arithmetic over any real normed space."
  },
  {
   "property": "C170",
   "status": "partial",
   "theorems": [
    "Simox.Rrt.C170_visualization_partial",
    "Simox.Rrt.C170_working_set_false",
    "Simox.Rrt.C170_visualization_false"
   ],
   "note": "a timeout or an exception leaves the switch off (C170_visualization_false); no grasp is ever taken out, because the set holds copies (C170_working_set_false)"
  },
  {
   "property": "C171",
   "status": "proved",
   "theorems": [
    "Simox.Band.C171_ends",
    "Simox.Band.C171_small_moves",
    "Simox.Band.C171_drift",
    "Simox.Band.C171_shorter",
    "Simox.Band.C171_rest",
    "Simox.Band.C171_pull",
    "Simox.Band.C171_push"
   ],
   "note": "the bounds hold for weights that do not enlarge vectors"
  },
  {
   "property": "C172",
   "status": "partial",
   "theorems": [
    "Simox.Band.C172_stuck",
    "Simox.Band.C172_throws",
    "Simox.Band.C172_collision_false"
   ],
   "note": "collisions are not checked (C172_collision_false), points in collision stay where they are (C172_stuck), and paths with fewer than two points throw (C172_throws)"
  },
  {
   "property": "C173",
   "status": "partial",
   "theorems": [
    "Simox.Mnp.C173_well_defined",
    "Simox.Mnp.C173_frame",
    "Simox.Mnp.C173_volume",
    "Simox.Mnp.C173_singular",
    "Simox.Mnp.C173_one_joint_false",
    "Simox.Mnp.C173_direction"
   ],
   "note": "the ratio is 0 for a single joint (C173_one_joint_false)"
  },
  {
   "property": "C174",
   "status": "partial",
   "theorems": [
    "Simox.Mnp.C174_within",
    "Simox.Mnp.C174_value",
    "Simox.Mnp.C174_outside_false"
   ],
   "note": "false for joints outside their limits: one makes the quality negative, two cancel out (C174_outside_false)"
  },
  {
   "property": "C175",
   "status": "partial",
   "theorems": [
    "Simox.Mnp.C175_limits",
    "Simox.Mnp.C175_at_limit_false",
    "Simox.Mnp.C175_entries",
    "Simox.Mnp.C175_obstacle",
    "Simox.Mnp.C175_perpendicular_false",
    "Simox.Mnp.C175_octants",
    "Simox.Mnp.C175_minimum",
    "Simox.Mnp.C175_one_joint_false",
    "Simox.Mnp.C175_middle"
   ],
   "note": "at the limit itself the penalty is smaller than before it (C175_at_limit_false); coordinates perpendicular to the obstacle are penalized in one direction (C175_perpendicular_false); a single joint gives the largest float (C175_one_joint_false)"
  },
  {
   "property": "C176",
   "status": "proved",
   "theorems": [
    "Simox.Mnp.C176_map",
    "Simox.Mnp.C176_order",
    "Simox.Mnp.C176_grasps"
   ],
   "note": ""
  },
  {
   "property": "C177",
   "status": "partial",
   "theorems": [
    "Simox.Mnp.C177_threads_partial",
    "Simox.Mnp.C177_one_thread",
    "Simox.Mnp.C177_threads_false",
    "Simox.Mnp.C177_self_distance_false",
    "Simox.Mnp.C177_self_distance"
   ],
   "note": "proved: every entry was added at its voxel and reachable voxels stay reachable (C177_threads_partial), one thread keeps the best (C177_one_thread). The best entry may be lost (C177_threads_false), and threads measure the self distance of a robot that does not move (C177_self_distance_false)"
  },
  {
   "property": "C178",
   "status": "proved",
   "theorems": [
    "Simox.Mnp.C178_smooth",
    "Simox.Mnp.C178_inner"
   ],
   "note": ""
  },
  {
   "property": "C179",
   "status": "partial",
   "theorems": [
    "Simox.Lnk.C179_history",
    "Simox.Lnk.C179_failures",
    "Simox.Lnk.C179_position",
    "Simox.Lnk.C179_unset_false"
   ],
   "note": "getInFrame of a coordinate that was not set fails (C179_unset_false)"
  },
  {
   "property": "C18",
   "status": "proved",
   "theorems": [
    "Simox.Trajectory.C18_trajectory_length",
    "Simox.Trajectory.C18_trajectory_laws",
    "Simox.Trajectory.C18_cspace_laws",
    "Simox.Trajectory.C18_cspace_range"
   ],
   "note": ""
  },
  {
   "property": "C180",
   "status": "partial",
   "theorems": [
    "Simox.Lnk.C180_chain",
    "Simox.Lnk.C180_empty_false",
    "Simox.Lnk.C180_root",
    "Simox.Lnk.C180_current",
    "Simox.Lnk.C180_reach",
    "Simox.Lnk.C180_prismatic_false"
   ],
   "note": "the bound holds for rotational joints (C180_reach), not with translational ones (C180_prismatic_false); an empty set reads outside of its vector (C180_empty_false)"
  },
  {
   "property": "C181",
   "status": "partial",
   "theorems": [
    "Simox.Lnk.C181_mean",
    "Simox.Lnk.C181_hull",
    "Simox.Lnk.C181_moves",
    "Simox.Lnk.C181_massless_false"
   ],
   "note": "without mass the centre is the origin of the world wherever the robot is (C181_massless_false)"
  },
  {
   "property": "C182",
   "status": "proved",
   "theorems": [
    "Simox.Stb.C182_polygon",
    "Simox.Stb.C182_height"
   ],
   "note": "the collision checker that finds the contacts is not modelled"
  },
  {
   "property": "C183",
   "status": "partial",
   "theorems": [
    "Simox.Stb.C183_range",
    "Simox.Stb.C183_none",
    "Simox.Stb.C183_index",
    "Simox.Stb.C183_meaning",
    "Simox.Stb.C183_corner_false"
   ],
   "note": "where the centre of the bounding box is on the border of the polygon the index is 0 everywhere, however safe the stance (C183_corner_false)"
  },
  {
   "property": "C184",
   "status": "partial",
   "theorems": [
    "Simox.Stb.C184_com",
    "Simox.Stb.C184_hierarchical",
    "Simox.Stb.C184_solved_start_false",
    "Simox.Stb.C184_tolerances",
    "Simox.Stb.C184_never_solved"
   ],
   "note": "a robot in a solution is still moved, and with no steps allowed the answer is no (C184_solved_start_false); with the joint limit avoidance among the tasks the answer is always no (C184_never_solved)"
  },
  {
   "property": "C185",
   "status": "proved",
   "theorems": [
    "Simox.Stb.C185_middle",
    "Simox.Stb.C185_limits",
    "Simox.Stb.C185_error"
   ],
   "note": "translational joints are never moved away from their limits (part of C185_middle)"
  },
  {
   "property": "C186",
   "status": "proved",
   "theorems": [
    "Simox.Rfn.C186_refine",
    "Simox.Rfn.C186_result",
    "Simox.Rfn.C186_diverges",
    "Simox.Rfn.C186_invalid"
   ],
   "note": "real numbers: with floats a length below the distance of neighbouring floats is another way not to end; the visualization of the result is not modelled"
  },
  {
   "property": "C187",
   "status": "proved",
   "theorems": [
    "Simox.Rfn.C187_closed",
    "Simox.Rfn.C187_max",
    "Simox.Rfn.C187_refined"
   ],
   "note": "vertices are identified by their positions; the mesh itself stores the middle of a shared edge twice"
  },
  {
   "property": "C188",
   "status": "partial",
   "theorems": [
    "Simox.Gaz.C188_yes",
    "Simox.Gaz.C188_limits",
    "Simox.Gaz.C188_answers",
    "Simox.Gaz.C188_no",
    "Simox.Gaz.C188_more_loops",
    "Simox.Gaz.C188_solved_start_false"
   ],
   "note": "the last sentence is false: the start is not tested and its virtual joint is overwritten (C188_solved_start_false)"
  },
  {
   "property": "C189",
   "status": "proved",
   "theorems": [
    "Simox.Gaz.C189_descent",
    "Simox.Gaz.C189_first"
   ],
   "note": ""
  },
  {
   "property": "C19",
   "status": "partial",
   "theorems": [
    "Simox.CSpace.C19_length_flag_inverted",
    "Simox.CSpace.C19_length_partial",
    "Simox.CSpace.C19_time_at_end",
    "Simox.CSpace.C19_half_way_is_quarter"
   ],
   "note": "The property is false with metric weights (proved: the flag is inverted, with consequences for getTime and interpolate); it holds without weights."
  },
  {
   "property": "C190",
   "status": "proved",
   "theorems": [
    "Simox.Rfn.C190_mesh",
    "Simox.Rfn.C190_points",
    "Simox.Rfn.C190_throws"
   ],
   "note": "the normal is only claimed for triangles with a cross product of length at least 1e-10, as in the code; the hull itself (qhull) is not modelled"
  },
  {
   "property": "C191",
   "status": "partial",
   "theorems": [
    "Simox.Lgr.C191_file",
    "Simox.Lgr.C191_columns",
    "Simox.Lgr.C191_max_false",
    "Simox.Lgr.C191_pause_false"
   ],
   "note": "one sample more than the maximum is kept (C191_max_false), and the times leave out pauses (C191_pause_false); the actual velocity is written with the opposite sign of the reading, as in the code"
  },
  {
   "property": "C20",
   "status": "proved",
   "theorems": [
    "Simox.CSpace.C20_boundaries_either_order",
    "Simox.CSpace.C20_clamping",
    "Simox.CSpace.C20_random_config_inside",
    "Simox.CSpace.C20_config_valid_iff"
   ],
   "note": "Real arithmetic."
  },
  {
   "property": "C21",
   "status": "partial",
   "theorems": [
    "Simox.CSpace.C21_path_partial",
    "Simox.CSpace.C21_path_reaches_goal",
    "Simox.CSpace.C21_goal_missed"
   ],
   "note": "The path may end up to 1e-6 short of the goal (proved violation in a window of width 1e-6 above the sampling size); outside that window the end is exactly the goal. Real arithmetic."
  },
  {
   "property": "C22",
   "status": "proved",
   "theorems": [
    "Simox.CSpace.C22_valid_sound",
    "Simox.CSpace.C22_invalid_has_reason",
    "Simox.CSpace.C22_zero_dcd_rejects"
   ],
   "note": "The actual spacing is 1.001 DCD sampling sizes, as coded. The shared recursion buffer and asynchronous stop requests are modelled."
  },
  {
   "property": "C23",
   "status": "proved",
   "theorems": [
    "Simox.Rrt.C23_rrt_solution",
    "Simox.Rrt.C23_sampled_solution",
    "Simox.Rrt.C23_stale_solution_after_failed_plan",
    "Simox.Rrt.C23_get_solution_crashes",
    "Simox.Rrt.C23_solution_survives_reset",
    "Simox.Rrt.C23_timeout_discards_success"
   ],
   "note": "Holds for every history, mode, capacity, cycle limit and stream of random choices, stop requests and timeouts; the end is the goal up to the 1e-6 tolerance of createPath (C21). The other theorems are counterexamples about getSolution after a plan that returned false."
  },
  {
   "property": "C24",
   "status": "partial",
   "theorems": [
    "Simox.Rrt.C24_birrt_solution_partial",
    "Simox.Rrt.C24_exact_meeting",
    "Simox.Rrt.C24_goal_after_success_ignored",
    "Simox.Rrt.C24_goal_after_failure_unchecked",
    "Simox.Rrt.C24_failed_plan_bridges"
   ],
   "note": "Proved for histories in which no goal is set after a planning attempt (without a reset in between). For the other histories the claim is false of the code; two witnesses are proved."
  },
  {
   "property": "C25",
   "status": "proved",
   "theorems": [
    "Simox.Rrt.C25_start_is_goal_never_succeeds",
    "Simox.Rrt.C25_sampled_never_succeeds"
   ],
   "note": ""
  },
  {
   "property": "C26",
   "status": "proved",
   "theorems": [
    "Simox.Shortcut.C26_shorten",
    "Simox.Shortcut.C26_round",
    "Simox.Shortcut.C26_candidates",
    "Simox.Shortcut.C26_candidates_exist",
    "Simox.Shortcut.C26_prune",
    "Simox.Shortcut.C26_prune_single_point_diverges",
    "Simox.Shortcut.C26_sampled"
   ],
   "note": "Random choices are an arbitrary stream. The single-point divergence is an unsigned wrap in doPathPruning."
  },
  {
   "property": "C27",
   "status": "proved",
   "theorems": [
    "Simox.Threads.C27_one_worker",
    "Simox.Threads.C27_result",
    "Simox.Threads.C27_flags",
    "Simox.Threads.C27_stop_takes_effect",
    "Simox.Threads.C27_worker_never_blocked",
    "Simox.Threads.C27_stop_returns",
    "Simox.Threads.C27_stop_lost",
    "Simox.Threads.C27_stop_hits_wrong_run"
   ],
   "note": "Sequentially consistent interleavings. The two violations of the informal stop contract (lost request, request hitting a later run) are theorems."
  },
  {
   "property": "C28",
   "status": "proved",
   "theorems": [
    "Simox.Collision.C28_exact",
    "Simox.Collision.C28_with",
    "Simox.Collision.C28_members",
    "Simox.Collision.C28_defined_iff",
    "Simox.Collision.C28_pairs_always_defined",
    "Simox.Collision.C28_add_model_undefined",
    "Simox.Collision.C28_same_object_twice"
   ],
   "note": "The narrow-phase collision test is an arbitrary relation. Iterator invalidation in addCollisionModel is an explicit undefined outcome depending on vector capacity."
  },
  {
   "property": "C29",
   "status": "proved",
   "theorems": [
    "Simox.Collision.C29_distance",
    "Simox.Collision.C29_none",
    "Simox.Collision.C29_empty_set",
    "Simox.Collision.C29_distance_to",
    "Simox.Collision.C29_distance_to_points",
    "Simox.Collision.C29_variants_disagree"
   ],
   "note": "The narrow-phase distance is an arbitrary function into a linear order. The disagreement of the variants is a theorem."
  },
  {
   "property": "C30",
   "status": "proved",
   "theorems": [
    "Simox.Kin.C30_all_or_nothing",
    "Simox.Kin.C30_own_robot",
    "Simox.Kin.C30_set_get",
    "Simox.Kin.C30_well_formed",
    "Simox.Kin.C30_clone",
    "Simox.Kin.C30_save_restore",
    "Simox.Kin.C30_robot_reports_success"
   ],
   "note": "Joint values are reals; nodes are identified by name."
  },
  {
   "property": "C31",
   "status": "proved",
   "theorems": [
    "Simox.Collision.C31_invariant",
    "Simox.Collision.C31_add",
    "Simox.Collision.C31_bulk",
    "Simox.Collision.C31_self",
    "Simox.Collision.C31_nodes",
    "Simox.Collision.C31_remove",
    "Simox.Collision.C31_clone"
   ],
   "note": "Histories of add/bulk add/remove on any number of sets."
  },
  {
   "property": "C32",
   "status": "proved",
   "theorems": [
    "Simox.Grsp.C32_no_duplicates",
    "Simox.Grsp.C32_no_duplicates_release",
    "Simox.Grsp.C32_release_admits_duplicates",
    "Simox.Grsp.C32_include",
    "Simox.Grsp.C32_include_incompatible",
    "Simox.Grsp.C32_lookup",
    "Simox.Grsp.C32_remove",
    "Simox.Grsp.C32_preshape",
    "Simox.Grsp.C32_clone",
    "Simox.Grsp.C32_object_include",
    "Simox.Grsp.C32_object_include_throws",
    "Simox.Grsp.C32_include_is_lost_to_get",
    "Simox.Grsp.C32_object_sets"
   ],
   "note": "Release builds admit duplicates and a second set for one end effector hides included grasps; both shown as theorems."
  },
  {
   "property": "C33",
   "status": "proved",
   "theorems": [
    "Simox.Scn.C33_present",
    "Simox.Scn.C33_order",
    "Simox.Scn.C33_lookup",
    "Simox.Scn.C33_trajectories",
    "Simox.Scn.C33_independent",
    "Simox.Scn.C33_null",
    "Simox.Scn.C33_config_present",
    "Simox.Scn.C33_config_lookup",
    "Simox.Scn.C33_config_by_robot_name",
    "Simox.Scn.C33_query_has_side_effect",
    "Simox.Scn.C33_configs_outlive_robot"
   ],
   "note": "Side effects of configuration queries and outliving configurations shown as theorems."
  },
  {
   "property": "C34",
   "status": "proved",
   "theorems": [
    "Simox.Kin.C34_enforced",
    "Simox.Kin.C34_not_enforced",
    "Simox.Kin.C34_limitless",
    "Simox.Kin.C34_limitless_short",
    "Simox.Kin.C34_limitless_wrong_angle",
    "Simox.Kin.C34_limitless_out_of_limits",
    "Simox.Kin.C34_before_initialization",
    "Simox.Kin.C34_check",
    "Simox.Kin.C34_delta_limits",
    "Simox.Kin.C34_delta_limitless",
    "Simox.Kin.C34_delta_not_shortest"
   ],
   "note": "Values are reals, so the wrap loops terminate; the two ways in which limitless joints go wrong are theorems."
  },
  {
   "property": "C35",
   "status": "proved",
   "theorems": [
    "Simox.Kin.C35_set_joint_values",
    "Simox.Kin.C35_set_joint_value",
    "Simox.Kin.C35_moves_only_below",
    "Simox.Kin.C35_node_set",
    "Simox.Kin.C35_constructor_root",
    "Simox.Kin.C35_set_global_pose",
    "Simox.Kin.C35_history",
    "Simox.Kin.C35_propagation_terminates",
    "Simox.Kin.C35_propagation",
    "Simox.Kin.C35_cyclic_propagation_diverges",
    "Simox.Kin.C35_batch_does_not_propagate",
    "Simox.Kin.C35_wrong_root_breaks_poses"
   ],
   "note": "Poses are elements of an arbitrary group. Missing propagation in batches, divergence of cyclic propagation and unchecked kinematic roots are theorems."
  },
  {
   "property": "C36",
   "status": "proved",
   "theorems": [
    "Simox.Attach.C36_links",
    "Simox.Attach.C36_attach",
    "Simox.Attach.C36_detach",
    "Simox.Attach.C36_forest",
    "Simox.Attach.C36_cycle_admitted",
    "Simox.Attach.C36_has_child",
    "Simox.Attach.C36_has_child_cycle",
    "Simox.Attach.C36_set_pose",
    "Simox.Attach.C36_pose_cycle",
    "Simox.Attach.C36_initialize",
    "Simox.Attach.C36_initialize_breaks_links",
    "Simox.Attach.C36_rename_breaks_names"
   ],
   "note": "attachChild admits cycles, initialize() breaks links and setName breaks sibling names; shown as theorems."
  },
  {
   "property": "C37",
   "status": "proved",
   "theorems": [
    "Simox.Env.C37_lookup",
    "Simox.Env.C37_add",
    "Simox.Env.C37_paths_grow",
    "Simox.Env.C37_init_once",
    "Simox.Env.C37_order",
    "Simox.Env.C37_env",
    "Simox.Env.C37_env_overwritten",
    "Simox.Env.C37_dangling_link"
   ],
   "note": "A valid SIMOX_DATA_PATH is not counted when VIRTUAL_ROBOT_DATA_PATH is invalid; shown as a theorem."
  },
  {
   "property": "C38",
   "status": "proved",
   "theorems": [
    "Simox.CSpace.C38_angle_delta_shortest",
    "Simox.CSpace.C38_dist_pseudo_metric",
    "Simox.CSpace.C38_dist_zero_iff",
    "Simox.CSpace.C38_interpolation_proportional",
    "Simox.CSpace.C38_interpolation_range"
   ],
   "note": "Proportionality needs that no translational joint is declared limitless. Real arithmetic."
  },
  {
   "property": "C39",
   "status": "proved",
   "theorems": [
    "Simox.CSpace.C39_until_invalid",
    "Simox.CSpace.C39_zero_distance_unchecked"
   ],
   "note": "For configurations at non-zero distance; at distance zero the goal is reported reached without a check (second theorem). Real arithmetic."
  },
  {
   "property": "C40",
   "status": "partial",
   "theorems": [
    "Simox.Kin.C40_pose_partial",
    "Simox.Kin.C40_identity_orientation",
    "Simox.Kin.C40_position_unrotated",
    "Simox.Kin.C40_wrong_for_identity_orientation"
   ],
   "note": "Proved for targets that are not axis parallel, and for positions of an unrotated robot; for the other cases the resulting pose is computed and the full statement is refuted (C40_wrong_for_identity_orientation)."
  },
  {
   "property": "C41",
   "status": "proved",
   "theorems": [
    "Simox.Kin.C41_local_global",
    "Simox.Kin.C41_between"
   ],
   "note": "Rigid poses over an arbitrary rotation group acting on a vector group; orthogonality of the float matrices is assumed by this."
  },
  {
   "property": "C42",
   "status": "proved",
   "theorems": [
    "Simox.Grsp.C42_inverse",
    "Simox.Grsp.C42_target"
   ],
   "note": "Poses form a group."
  },
  {
   "property": "C43",
   "status": "proved",
   "theorems": [
    "Simox.Env.C43_values",
    "Simox.Env.C43_command_line",
    "Simox.Env.C43_file_parameter",
    "Simox.Env.C43_vector"
   ],
   "note": "Option parsing by boost is not modelled."
  },
  {
   "property": "C44",
   "status": "proved",
   "theorems": [
    "Simox.Vox.C44_get_after_sets",
    "Simox.Vox.C44_set_result",
    "Simox.Vox.C44_leaf",
    "Simox.Vox.C44_discretization",
    "Simox.Vox.C44_all_leafs",
    "Simox.Vox.C44_max_entry",
    "Simox.Vox.C44_count",
    "Simox.Vox.C44_save_load",
    "Simox.Vox.C44_save_empty_fails",
    "Simox.Vox.C44_iterator",
    "Simox.Vox.C44_one_level_outside",
    "Simox.Vox.C44_coarser_than_requested",
    "Simox.Vox.C44_iterator_one_level",
    "Simox.Vox.C44_log_of_zero"
   ],
   "note": "Positions are exact rationals and the logarithm in the constructor is exact. C44_one_level_outside shows that a one-level tree ignores the position in getEntry; C44_iterator_one_level, C44_save_empty_fails and C44_log_of_zero are the other deviations."
  },
  {
   "property": "C45",
   "status": "proved",
   "theorems": [
    "Simox.Pqp.C45_all_contacts",
    "Simox.Pqp.C45_exact",
    "Simox.Pqp.C45_first_contact",
    "Simox.Pqp.C45_degenerate_pair",
    "Simox.Pqp.C45_check_collision"
   ],
   "note": "Over the reals, for every outcome of the eigenvector iteration. C45_degenerate_pair shows why non-degeneracy is needed for the converse."
  },
  {
   "property": "C46",
   "status": "proved",
   "theorems": [
    "Simox.Pqp.C46_protocol",
    "Simox.Pqp.C46_double_free"
   ],
   "note": "C46_double_free is the defect contained in the statement."
  },
  {
   "property": "C47",
   "status": "proved",
   "theorems": [
    "Simox.Pqp.C47_precision",
    "Simox.Pqp.C47_history",
    "Simox.Pqp.C47_unique",
    "Simox.Pqp.C47_new_models",
    "Simox.Pqp.C47_tiny_triangle",
    "Simox.Pqp.C47_contact_points"
   ],
   "note": "exactness of distance queries over any sequence of queries, error-bounded variant, plus witnesses that tiny triangles and the points reported at distance 0 are rightly excluded"
  },
  {
   "property": "C48",
   "status": "proved",
   "theorems": [
    "Simox.Pqp.C48_tolerance",
    "Simox.Pqp.C48_point_tolerance_ignored"
   ],
   "note": "answer iff distance is at most the tolerance; the fixed tolerance for points is shown by a theorem and a witness"
  },
  {
   "property": "C49",
   "status": "proved",
   "theorems": [
    "Simox.Eef.C49_closed",
    "Simox.Eef.C49_legal_steps",
    "Simox.Eef.C49_other_joints",
    "Simox.Eef.C49_whole_steps",
    "Simox.Eef.C49_contacts_exact",
    "Simox.Eef.C49_contacts_once",
    "Simox.Eef.C49_contacts_measured",
    "Simox.Eef.C49_open",
    "Simox.Eef.C49_single_object",
    "Simox.Eef.C49_trial_move"
   ],
   "note": "real arithmetic; joints without propagation and not limitless; proper hands (no joint twice in one actor)"
  },
  {
   "property": "C50",
   "status": "proved",
   "theorems": [
    "Simox.Eef.C50_terminates",
    "Simox.Eef.C50_zero_speed",
    "Simox.Eef.C50_opposed_actors"
   ],
   "note": "real arithmetic: a float step that is too small to change the joint value is not covered; C50_zero_speed and C50_opposed_actors show the hypotheses are needed"
  },
  {
   "property": "C51",
   "status": "proved",
   "theorems": [
    "Simox.Eef.C51_stays_free"
   ],
   "note": "real arithmetic"
  },
  {
   "property": "C52",
   "status": "proved",
   "theorems": [
    "Simox.Jac.C52_columns",
    "Simox.Jac.C52_unique",
    "Simox.Jac.C52_size",
    "Simox.Jac.C52_stacked",
    "Simox.Jac.C52_propagation_ignored"
   ],
   "note": "real arithmetic; unit rotation axes; C52_propagation_ignored is a witness that propagated joints are ignored"
  },
  {
   "property": "C53",
   "status": "proved",
   "theorems": [
    "Simox.Jac.C53_com",
    "Simox.Jac.C53_columns",
    "Simox.Jac.C53_size",
    "Simox.Jac.C53_frame_wrong"
   ],
   "note": "real arithmetic; C53_frame_wrong is the witness for the coordinate system defect; joints with value propagation excluded as in C52"
  },
  {
   "property": "C54",
   "status": "proved",
   "theorems": [
    "Simox.Inv.C54_near_least_error",
    "Simox.Inv.C54_bounded",
    "Simox.Inv.C54_least_error",
    "Simox.Inv.C54_damped",
    "Simox.Inv.C54_throws",
    "Simox.Inv.C54_provider_svd",
    "Simox.Inv.C54_provider_svd_exact",
    "Simox.Inv.C54_provider_damped",
    "Simox.Inv.C54_provider_transpose"
   ],
   "note": "real arithmetic; Eigen's SVD is assumed to be exact"
  },
  {
   "property": "C55",
   "status": "proved",
   "theorems": [
    "Simox.Inv.C55_throws",
    "Simox.Inv.C55_priority",
    "Simox.Inv.C55_best_of_rest",
    "Simox.Inv.C55_priority_exact",
    "Simox.Inv.C55_first",
    "Simox.Inv.C55_stacked",
    "Simox.Inv.C55_others_disturb"
   ],
   "note": "real arithmetic; C55_others_disturb is the witness for the other methods"
  },
  {
   "property": "C56",
   "status": "proved",
   "theorems": [
    "Simox.Ik.C56_errors",
    "Simox.Ik.C56_success",
    "Simox.Ik.C56_run",
    "Simox.Ik.C56_only_set_joints",
    "Simox.Ik.C56_no_worse",
    "Simox.Ik.C56_goals",
    "Simox.Ik.C56_first_step_may_worsen",
    "Simox.Ik.C56_met_at_start"
   ],
   "note": "real arithmetic; C56_first_step_may_worsen and C56_met_at_start are the boundaries of the claim: the first step is not compared with the start, and goals met at the start are not recognised"
  },
  {
   "property": "C57",
   "status": "proved",
   "theorems": [
    "Simox.Ik.C57_error",
    "Simox.Ik.C57_step_transpose",
    "Simox.Ik.C57_step_svd",
    "Simox.Ik.C57_frame_ignored"
   ],
   "note": "real arithmetic; C57_frame_ignored is the witness for the coordinate system"
  },
  {
   "property": "C58",
   "status": "proved",
   "theorems": [
    "Simox.Ik.C58_success",
    "Simox.Ik.C58_unreachable",
    "Simox.Ik.C58_run",
    "Simox.Ik.C58_goal_replaced",
    "Simox.Ik.C58_best_lost"
   ],
   "note": "C58_best_lost shows that the end of the first attempt may be dropped although it is the best"
  },
  {
   "property": "C59",
   "status": "proved",
   "theorems": [
    "Simox.Ik.C59_no_update",
    "Simox.Ik.C59_grasp",
    "Simox.Ik.C59_sample",
    "Simox.Ik.C59_object",
    "Simox.Ik.C59_copy"
   ],
   "note": "for steps that do not throw (transpose method, or positive weights)"
  },
  {
   "property": "C60",
   "status": "proved",
   "theorems": [
    "Simox.Wsr.C60_grid",
    "Simox.Wsr.C60_inside",
    "Simox.Wsr.C60_accepted",
    "Simox.Wsr.C60_outside_not_ignored",
    "Simox.Wsr.C60_position",
    "Simox.Wsr.C60_position_disagrees",
    "Simox.Wsr.C60_centre",
    "Simox.Wsr.C60_pose_from_voxel",
    "Simox.Wsr.C60_pose_from_voxel_leaves"
   ],
   "note": "real arithmetic; C60_outside_not_ignored, C60_position_disagrees and C60_pose_from_voxel_leaves are the boundaries of the claim"
  },
  {
   "property": "C61",
   "status": "proved",
   "theorems": [
    "Simox.Wsr.C61_contents",
    "Simox.Wsr.C61_achieved",
    "Simox.Wsr.C61_recorded_stays_covered",
    "Simox.Wsr.C61_covered_was_recorded",
    "Simox.Wsr.C61_if_lower_is_max",
    "Simox.Wsr.C61_hits"
   ],
   "note": "histories without undefined behaviour; it is shown that valid calls have none"
  },
  {
   "property": "C62",
   "status": "proved",
   "theorems": [
    "Simox.Wsr.C62_sums",
    "Simox.Wsr.C62_maxima",
    "Simox.Wsr.C62_volume_counts",
    "Simox.Wsr.C62_volume_overestimated",
    "Simox.Wsr.C62_fill_holes_fills_nothing",
    "Simox.Wsr.C62_fill_holes_smooths",
    "Simox.Wsr.C62_fill_holes_division_by_zero",
    "Simox.Wsr.C62_voxel_entry_outside",
    "Simox.Wsr.C62_voxel_entry_out_of_bounds",
    "Simox.Wsr.C62_sample"
   ],
   "note": "the volumes in cubic metres are overestimated (C62_volume_overestimated); undefined behaviour for unsigned arguments from 2^31 on is witnessed"
  },
  {
   "property": "C63",
   "status": "proved",
   "theorems": [
    "Simox.Wsr.C63_extents",
    "Simox.Wsr.C63_local_global",
    "Simox.Wsr.C63_cut",
    "Simox.Wsr.C63_cut_height",
    "Simox.Wsr.C63_transformations",
    "Simox.Wsr.C63_transformations_misplaced"
   ],
   "note": "real arithmetic; C63_transformations_misplaced is the boundary of the claim on poses"
  },
  {
   "property": "C64",
   "status": "proved",
   "theorems": [
    "Simox.Wsf.C64_values",
    "Simox.Wsf.C64_members",
    "Simox.Wsf.C64_round_trip",
    "Simox.Wsf.C64_boundary",
    "Simox.Wsf.C64_cut_silent",
    "Simox.Wsf.C64_old_formats",
    "Simox.Wsf.C64_refused",
    "Simox.Wsf.C64_old_version_saved",
    "Simox.Wsf.C64_size_overflow"
   ],
   "note": "the compression algorithm itself is a parameter with stated assumptions (Spec.Stream), met by a concrete codec in the examples; customLoad and customSave of derived classes are not modelled"
  },
  {
   "property": "C65",
   "status": "proved",
   "theorems": [
    "Simox.Wsf.C65_pairs_round_trip",
    "Simox.Wsf.C65_pairs_outcome"
   ],
   "note": "compressData has no caller in the pinned commit; it wrote the files of versions 1.3 and 2.0"
  },
  {
   "property": "C66",
   "status": "proved",
   "theorems": [
    "Simox.Hull.C66_hull",
    "Simox.Hull.C66_exact"
   ],
   "note": "real numbers instead of float"
  },
  {
   "property": "C67",
   "status": "proved",
   "theorems": [
    "Simox.Hull.C67_inside",
    "Simox.Hull.C67_exact",
    "Simox.Hull.C67_near",
    "Simox.Hull.C67_center"
   ],
   "note": "real numbers instead of float"
  },
  {
   "property": "C68",
   "status": "proved",
   "theorems": [
    "Simox.Rot.C68_from_rpy",
    "Simox.Rot.C68_to_rpy_and_back",
    "Simox.Rot.C68_rpy_roundtrip"
   ],
   "note": "real numbers instead of float"
  },
  {
   "property": "C69",
   "status": "proved",
   "theorems": [
    "Simox.Rot.C69_algebra",
    "Simox.Rot.C69_rotation"
   ],
   "note": "real numbers instead of float; norms below FLT_MIN as written"
  },
  {
   "property": "C70",
   "status": "proved",
   "theorems": [
    "Simox.Rot.C70_quaternion",
    "Simox.Rot.C70_axis_angle",
    "Simox.Rot.C70_angle"
   ],
   "note": "real numbers instead of float"
  },
  {
   "property": "C71",
   "status": "proved",
   "theorems": [
    "Simox.Rot.C71_unit",
    "Simox.Rot.C71_hopf"
   ],
   "note": "real numbers instead of float"
  },
  {
   "property": "C72",
   "status": "proved",
   "theorems": [
    "Simox.Rot.C72_direction"
   ],
   "note": "real numbers instead of float; the tolerance branch for nearly opposite vectors as modelled"
  },
  {
   "property": "C73",
   "status": "partial",
   "theorems": [
    "Simox.Rot.C73_project",
    "Simox.Rot.C73_plane_point",
    "Simox.Rot.C73_local_partial",
    "Simox.Rot.C73_local_false"
   ],
   "note": "projectPointToPlane2D is the inverse only for planes through the origin or with normal up (C73_local_partial); false in general (C73_local_false)"
  },
  {
   "property": "C74",
   "status": "proved",
   "theorems": [
    "Simox.Rot.C74_mean"
   ],
   "note": "real numbers instead of float"
  },
  {
   "property": "C75",
   "status": "partial",
   "theorems": [
    "Simox.Rot.C75_slerp_partial",
    "Simox.Rot.C75_slerp_false"
   ],
   "note": "false in general: y and z of the result are copied from the wrong components (C75_slerp_false); proved for rotations about the space diagonal, where the error has no effect"
  },
  {
   "property": "C76",
   "status": "proved",
   "theorems": [
    "Simox.Mth.C76_fmod",
    "Simox.Mth.C76_angle_mod",
    "Simox.Mth.C76_delta",
    "Simox.Mth.C76_lerp",
    "Simox.Mth.C76_shift"
   ],
   "note": "real numbers instead of float"
  },
  {
   "property": "C77",
   "status": "proved",
   "theorems": [
    "Simox.Mth.C77_pose_parts",
    "Simox.Mth.C77_inverse",
    "Simox.Mth.C77_transform",
    "Simox.Mth.C77_translate",
    "Simox.Mth.C77_pose_diff",
    "Simox.Mth.C77_pose_diff_symm",
    "Simox.Mth.C77_pose_diff_zero"
   ],
   "note": "real numbers instead of float; the matrix inverse in getPoseDiff is that of InvertedPose"
  },
  {
   "property": "C78",
   "status": "proved",
   "theorems": [
    "Simox.Mth.C78_orthonormal",
    "Simox.Mth.C78_angle",
    "Simox.Mth.C78_spherical",
    "Simox.Mth.C78_spherical_back",
    "Simox.Mth.C78_cylinder",
    "Simox.Mth.C78_area",
    "Simox.Mth.C78_rotation_vector",
    "Simox.Mth.C78_rotation_of_vector"
   ],
   "note": "real numbers instead of float; GetRotationVector with the transpose as inverse"
  },
  {
   "property": "C79",
   "status": "proved",
   "theorems": [
    "Simox.Mth.C79_closest_point",
    "Simox.Mth.C79_line_points",
    "Simox.Mth.C79_ray_triangle",
    "Simox.Mth.C79_ray_misses",
    "Simox.Mth.C79_ray_primitive",
    "Simox.Mth.C79_triangle",
    "Simox.Mth.C79_subdivide",
    "Simox.Mth.C79_random_point",
    "Simox.Mth.C79_nearest_on_segment"
   ],
   "note": "real numbers instead of float; rays parallel to the triangle are excluded (division by zero in the code)"
  },
  {
   "property": "C80",
   "status": "partial",
   "theorems": [
    "Simox.Mth.C80_from_normal",
    "Simox.Mth.C80_uvw",
    "Simox.Mth.C80_implicit",
    "Simox.Mth.C80_closest",
    "Simox.Mth.C80_get",
    "Simox.Mth.C80_signed_distance_false",
    "Simox.Mth.C80_signed_distance_partial",
    "Simox.Mth.C80_intersect",
    "Simox.Mth.C80_segment_plane",
    "Simox.Mth.C80_intersect_planes"
   ],
   "note": "GetSignedDistance has the wrong sign of d: it is the signed distance for planes through the origin only (C80_signed_distance_false, C80_signed_distance_partial); the rest is proved"
  },
  {
   "property": "C81",
   "status": "partial",
   "theorems": [
    "Simox.Mth.C81_limit_false",
    "Simox.Mth.C81_limit_grows",
    "Simox.Mth.C81_limit_partial"
   ],
   "note": "false as stated: the code divides by the factor it should multiply with, so vectors over the limit get longer (C81_limit_false, C81_limit_grows); the exception and vectors within the limits are proved"
  },
  {
   "property": "C82",
   "status": "partial",
   "theorems": [
    "Simox.Mth.C82_bezier",
    "Simox.Mth.C82_bezier_points",
    "Simox.Mth.C82_continued_bezier",
    "Simox.Mth.C82_line_strip",
    "Simox.Mth.C82_line_strip_knots",
    "Simox.Mth.C82_line_strip_degenerate",
    "Simox.Mth.C82_segments",
    "Simox.Mth.C82_find_closest",
    "Simox.Mth.C82_length",
    "Simox.Mth.C82_move_false",
    "Simox.Mth.C82_move_partial",
    "Simox.Mth.C82_float_range",
    "Simox.Mth.C82_vector_range",
    "Simox.Mth.C82_average",
    "Simox.Mth.C82_composite",
    "Simox.Mth.C82_transformed"
   ],
   "note": "all parts proved except MoveLengthOnCurve, which is false: it measures the graph of the curve, so on a line of unit direction it moves 1/sqrt 2 of the length given (C82_move_false, C82_move_partial). Real numbers instead of float; no overflow of the int cast"
  },
  {
   "property": "C83",
   "status": "partial",
   "theorems": [
    "Simox.Mth.C83_orientation_partial",
    "Simox.Mth.C83_orientation_slow",
    "Simox.Mth.C83_orientation_end_false"
   ],
   "note": "holds when the angle is at least 0.01 and the rate at least sqrt 0.001 rad per unit of time; otherwise Get returns start at all times (C83_orientation_slow), so a half turn in 100 s never reaches its end (C83_orientation_end_false)"
  },
  {
   "property": "C84",
   "status": "proved",
   "theorems": [
    "Simox.Mc.C84_array",
    "Simox.Mc.C84_array_alias_false",
    "Simox.Mc.C84_cache"
   ],
   "note": "C84_array, C84_cache. Indices out of range do not always throw: C84_array_alias_false"
  },
  {
   "property": "C85",
   "status": "proved",
   "theorems": [
    "Simox.Mc.C85_cell"
   ],
   "note": "over every ordered field. The tables are char: where char is unsigned the loop test != -1 never ends (see findings)"
  },
  {
   "property": "C86",
   "status": "partial",
   "theorems": [
    "Simox.Mc.C86_process",
    "Simox.Mc.C86_closed_partial",
    "Simox.Mc.C86_holes_partial",
    "Simox.Mc.C86_closed_false"
   ],
   "note": "C86_process in full; closed for values with no two neighbouring points on different sides both within 1e-5 of the level; without this it is false (C86_closed_false)"
  },
  {
   "property": "C87",
   "status": "partial",
   "theorems": [
    "Simox.Mc.C87_search",
    "Simox.Mc.C87_sub",
    "Simox.Mc.C87_closed_partial",
    "Simox.Mc.C87_single_false"
   ],
   "note": "all but the last sentence; several surfaces may be returned (C87_single_false); closed under the condition of C86"
  },
  {
   "property": "C88",
   "status": "partial",
   "theorems": [
    "Simox.Mc.C88_calculate",
    "Simox.Mc.C88_closed_partial",
    "Simox.Mc.C88_border_false"
   ],
   "note": "start strictly inside (C88_calculate); closed under the condition of C86; a start on the upper sides of the cube leaves the grid (C88_border_false)"
  },
  {
   "property": "C89",
   "status": "proved",
   "theorems": [
    "Simox.Bz.C89_writer",
    "Simox.Bz.C89_writer_range",
    "Simox.Bz.C89_reader",
    "Simox.Bz.C89_roundtrip"
   ],
   "note": "that bsW does not check its argument is C89_writer_range"
  },
  {
   "property": "C90",
   "status": "proved",
   "theorems": [
    "Simox.Bz.C90_runs",
    "Simox.Bz.C90_cut"
   ],
   "note": "without randomisation (an old format, which is the outcome `random` in the model)"
  },
  {
   "property": "C91",
   "status": "proved",
   "theorems": [
    "Simox.Bz.C91_inverse",
    "Simox.Bz.C91_in_range",
    "Simox.Bz.C91_links_perm"
   ],
   "note": "the sort itself is modelled by its specification (SortedRot): a permutation of the places that puts the rotations in order; every result of that kind will do"
  },
  {
   "property": "C92",
   "status": "proved",
   "theorems": [
    "Simox.Bz.C92_roundtrip",
    "Simox.Bz.C92_range"
   ],
   "note": "the list of the decoder is kept in 16 parts in the code, in one in the model"
  },
  {
   "property": "C93",
   "status": "proved",
   "theorems": [
    "Simox.Bz.C93_kraft",
    "Simox.Bz.C93_usable",
    "Simox.Bz.C93_terminates",
    "Simox.Bz.C93_depth"
   ],
   "note": "for the weights that occur; overflow of the 24 bit weights is excluded by the sizes"
  },
  {
   "property": "C94",
   "status": "proved",
   "theorems": [
    "Simox.Bz.C94_fits",
    "Simox.Bz.C94_roundtrip",
    "Simox.Bz.C94_prefix_free",
    "Simox.Bz.C94_in_range"
   ],
   "note": ""
  },
  {
   "property": "C95",
   "status": "proved",
   "theorems": [
    "Simox.Bz.C95_assertions",
    "Simox.Bz.C95_roundtrip",
    "Simox.Bz.C95_fuel"
   ],
   "note": "C95_assertions, C95_roundtrip, C95_fuel"
  },
  {
   "property": "C96",
   "status": "proved",
   "theorems": [
    "Simox.Bz.C96_roundtrip"
   ],
   "note": "for data handed over in one piece: the copying between buffers is not modelled"
  },
  {
   "property": "C97",
   "status": "partial",
   "theorems": [
    "Simox.Bz.C97_block_partial",
    "Simox.Bz.C97_stream_partial",
    "Simox.Bz.C97_safe_false",
    "Simox.Bz.C97_expand",
    "Simox.Bz.C97_values"
   ],
   "note": "false: for every number of selectors from 18003 to 32767 there is a file that makes it write outside selectorMtf (C97_safe_false); proved for all other files (C97_block_partial, C97_stream_partial, C97_expand, C97_values)"
  },
  {
   "property": "C98",
   "status": "proved",
   "theorems": [
    "Simox.Bz.C98_table",
    "Simox.Bz.C98_burst",
    "Simox.Bz.C98_checked"
   ],
   "note": "C98_table is a check of the 256 entries by the kernel; the others are general"
  },
  {
   "property": "C99",
   "status": "partial",
   "theorems": [
    "Simox.Krn.C99_first",
    "Simox.Krn.C99_second_plus",
    "Simox.Krn.C99_second_minus_false",
    "Simox.Krn.C99_mixed_minus_false",
    "Simox.Krn.C99_indices"
   ],
   "note": "all of it for WilliamsPlusKernel; for WilliamsMinusKernel the second derivatives have the wrong sign (C99_second_minus_false, C99_mixed_minus_false)"
  }
 ]
}
