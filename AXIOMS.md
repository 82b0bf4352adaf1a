# Axioms of the theorems named in MANIFEST.json

Output of `#print axioms`, written by tools/mk_axioms.py.

* **C01**
  * propext, Classical.choice, Quot.sound: `Wakis.Fld.C01_field_is_map`, `Wakis.Fld.C01_read_after_write`, `Wakis.Fld.C01_block_write`
* **C02**
  * propext, Classical.choice, Quot.sound: `Wakis.Fld.C02_layout`, `Wakis.Fld.C02_bijection`, `Wakis.Fld.C02_matrix_round_trip`
* **C03**
  * propext, Classical.choice, Quot.sound: `Wakis.Fld.C03_compute_ijk_partial`, `Wakis.Fld.C03_accepts_N`, `Wakis.Fld.C03_accepts_negative`, `Wakis.Fld.C03_full_claim_false`
* **C04**
  * propext, Classical.choice, Quot.sound: `Wakis.Fld.C04_int_key_partial`, `Wakis.Fld.C04_N_is_y`
  * propext, Quot.sound: `Wakis.Fld.C04_refuses_valid`
* **C05**
  * propext, Classical.choice, Quot.sound: `Wakis.Fld.C05_unknown_component`, `Wakis.Fld.C05_accepted_keys`
  * propext, Quot.sound: `Wakis.Fld.C05_bad_keys`
* **C06**
  * propext, Classical.choice, Quot.sound: `Wakis.Fld.C06_mul_pointwise`, `Wakis.Fld.C06_add_pointwise`, `Wakis.Fld.C06_mask_replace`
  * propext, Quot.sound: `Wakis.Fld.C06_operand_table`
* **C07**
  * propext, Classical.choice, Quot.sound: `Wakis.FieldHeap.C07_independent`, `Wakis.FieldHeap.C07_copy_fresh`, `Wakis.FieldHeap.C07_view_live`
* **C08**
  * propext, Classical.choice, Quot.sound: `Wakis.Fld.C08_magnitude`, `Wakis.Fld.C08_get_abs`
* **C09**
  * propext, Classical.choice, Quot.sound: `Wakis.Grid.C09_lengths`, `Wakis.Grid.C09_tile`, `Wakis.Grid.C09_uniform`
* **C10**
  * propext, Classical.choice, Quot.sound: `Wakis.Grid.C10_primary`, `Wakis.Grid.C10_dual`
* **C100**
  * propext, Classical.choice, Quot.sound: `Wakis.Mpi.C100_accepted_partial`, `Wakis.Mpi.C100_refuted`
* **C101**
  * propext, Classical.choice, Quot.sound: `Wakis.Wake.C101_axes`, `Wakis.Wake.C101_panofsky`, `Wakis.Wake.C101_first_order`
* **C102**
  * propext, Classical.choice, Quot.sound: `Wakis.Wake.C102_data_partial`, `Wakis.Wake.C102_given`, `Wakis.Wake.C102_bounds_refuted`, `Wakis.Wake.C102_axis`, `Wakis.Wake.C102_values_partial`, `Wakis.Wake.C102_beta_refuted`, `Wakis.Wake.C102_smart_bounds`, `Wakis.Wake.C102_impedance`, `Wakis.Wake.C102_unfitted`, `Wakis.Wake.C102_wake_function`
* **C103**
  * propext, Classical.choice, Quot.sound: `Wakis.Wake.C103_keywords_partial`, `Wakis.Wake.C103_beta_refuted`, `Wakis.Wake.C103_beta_differs_refuted`, `Wakis.Wake.C103_sigmaz_refuted`, `Wakis.Wake.C103_second_refuted`, `Wakis.Wake.C103_unknown_refuted`
* **C104**
  * propext, Classical.choice, Quot.sound: `Wakis.Wake.C104_injected_partial`, `Wakis.Wake.C104_normalised`, `Wakis.Wake.C104_slow_refuted`
* **C105**
  * propext, Classical.choice, Quot.sound: `Wakis.Conv.Box.C105_converges`, `Wakis.Conv.C105_second_order`, `Wakis.Conv.C105_cavity`
* **C106**
  * propext, Classical.choice, Quot.sound: `Wakis.Conv.Box.C106_low_walls`, `Wakis.Conv.C106_high_walls_refuted`
* **C107**
  * propext, Classical.choice, Quot.sound: `Wakis.Wake.C107_same_fields_partial`, `Wakis.Wake.C107_never_applied`, `Wakis.Wake.C107_low_abc_is_open`, `Wakis.Wake.C107_abc_differs`, `Wakis.Wake.C107_refuted`
* **C108**
  * propext, Classical.choice, Quot.sound: `Wakis.Wake.C108_same_start`, `Wakis.Wake.C108_after_reset_partial`, `Wakis.Wake.C108_first_frame`, `Wakis.Wake.C108_ringing`, `Wakis.Wake.C108_differs`, `Wakis.Wake.C108_refuted`, `Wakis.Wake.C108_both_same_start`, `Wakis.Wake.C108_both_after_reset_partial`, `Wakis.Wake.C108_both_first_frame`, `Wakis.Wake.C108_both_differs`, `Wakis.Wake.C108_both_refuted`
* **C109**
  * propext, Classical.choice, Quot.sound: `Wakis.Sol.C109_finite_speed_partial`, `Wakis.Sol.C109_one_write_partial`, `Wakis.Sol.C109_closed`, `Wakis.Sol.C109_open_refuted`
* **C11**
  * propext, Classical.choice, Quot.sound: `Wakis.Grid.C11_dual_lengths`, `Wakis.Grid.C11_positive`, `Wakis.Grid.C11_sum`
* **C110**
  * propext, Classical.choice, Quot.sound: `Wakis.Conv.Box.C110_exact`, `Wakis.Conv.Box.C110_mode`, `Wakis.Conv.Box.C110_unique_frequency`, `Wakis.Conv.Box.C110_frequency`, `Wakis.Conv.Box.C110_rings_partial`, `Wakis.Conv.C110_requested_box_refuted`
* **C111**
  * propext, Classical.choice, Quot.sound: `Wakis.Sol.C111_reaction`, `Wakis.Sol.C111_reciprocity`, `Wakis.Sol.C111_conductor_refuted`
* **C112**
  * propext, Classical.choice, Quot.sound: `Wakis.Sol.C112_passive_walls`, `Wakis.Sol.C112_passive`, `Wakis.Sol.C112_passive_uniform`
* **C113**
  * propext, Classical.choice, Quot.sound: `Wakis.Plot.C113_picture_partial`, `Wakis.Plot.C113_end_refuted`, `Wakis.Plot.C113_graded_refuted`, `Wakis.Plot.C113_indices`, `Wakis.Plot.C113_indices_refuted`, `Wakis.Plot.C113_mpi`, `Wakis.Plot.C113_mpi_indices_refuted`, `Wakis.Plot.C113_inspect`, `Wakis.Plot.C113_inspect_range_refuted`, `Wakis.Plot.C113_indices_x`, `Wakis.Plot.C113_indices_y`
* **C114**
  * propext, Classical.choice, Quot.sound: `Wakis.Plot.C114_curves_partial`, `Wakis.Plot.C114_position`, `Wakis.Plot.C114_mpi`, `Wakis.Plot.C114_eight_refuted`, `Wakis.Plot.C114_end_refuted`, `Wakis.Plot.C114_abs_refuted`, `Wakis.Plot.C114_indices`
* **C115**
  * propext, Classical.choice, Quot.sound: `Wakis.Sol.C115_fields`, `Wakis.Wake.C115_wake_run`, `Wakis.Wake.C115_impedance`, `Wakis.Wake.C115_wake`, `Wakis.Sol.C115_pml_refuted`, `Wakis.Wake.C115_both_run`, `Wakis.Wake.C115_trans_wake`, `Wakis.Wake.C115_trans_impedance`, `Wakis.Wake.C115_solve_both`, `Wakis.Wake.C115_both`
* **C116**
  * propext, Classical.choice, Quot.sound: `Wakis.Sol.C116_mesh`, `Wakis.Sol.C116_solver`, `Wakis.Sol.C116_setup`, `Wakis.Src.C116_beam`, `Wakis.Src.C116_plane_wave`, `Wakis.Src.C116_pulse`, `Wakis.Src.C116_dipole`, `Wakis.Src.C116_wave_packet_partial`, `Wakis.Src.C116_wave_packet_refuted`, `Wakis.Wake.C116_long_wake`, `Wakis.Wake.C116_block_wake`, `Wakis.Wake.C116_wake_run`, `Wakis.Wake.C116_wake`, `Wakis.Grid.C116_extents`, `Wakis.Grid.C116_rank`
  * propext, Quot.sound: `Wakis.Grid.C116_solid`
* **C117**
  * propext, Classical.choice, Quot.sound: `Wakis.Wake.C117_charge_partial`, `Wakis.Wake.C117_both_actual`, `Wakis.Wake.C117_both_refuted`
* **C118**
  * propext, Classical.choice, Quot.sound: `Wakis.Sol.C118_reversal`, `Wakis.Sol.C118_returns`, `Wakis.Sol.C118_free`
* **C119**
  * propext, Classical.choice, Quot.sound: `Wakis.Sol.C119_turn_partial`, `Wakis.Sol.C119_swap_partial`, `Wakis.Sol.C119_turn_free_partial`, `Wakis.Sol.C119_setup_turn_partial`, `Wakis.Sol.C119_setup_swap_partial`, `Wakis.Sol.C119_open_refuted`, `Wakis.Sol.C119_pml_turn_partial`, `Wakis.Sol.C119_pml_swap_partial`, `Wakis.Sol.C119_model_turn_partial`, `Wakis.Sol.C119_model_swap_partial`, `Wakis.Sol.C119_pml_refuted`
* **C12**
  * propext, Quot.sound: `Wakis.Grid.C12_refused`
  * propext, Classical.choice, Quot.sound: `Wakis.Grid.C12_local_grid`, `Wakis.Grid.C12_partition`, `Wakis.Grid.C12_ghosts_inside`, `Wakis.Grid.C12_single_rank_exceeds`
* **C120**
  * propext, Classical.choice, Quot.sound: `Wakis.Sol.C120_mirror_partial`, `Wakis.Sol.C120_free_partial`, `Wakis.Sol.C120_symmetric_partial`, `Wakis.Sol.C120_graded_refuted`, `Wakis.Sol.C120_solids_refuted`
* **C121**
  * propext, Classical.choice, Quot.sound: `Wakis.Wake.C121_line_integral`, `Wakis.Wake.C121_whole_axis`
* **C122**
  * propext, Classical.choice, Quot.sound: `Wakis.Wake.C122_fourier`, `Wakis.Wake.C122_recording`
* **C123**
  * propext, Classical.choice, Quot.sound: `Wakis.Sol.C123_cut`, `Wakis.Sol.C123_symmetry_plane_partial`, `Wakis.Sol.C123_free_partial`, `Wakis.Sol.C123_magnetic_refuted`
* **C124**
  * propext, Classical.choice, Quot.sound: `Wakis.GFld.C124_transparent`, `Wakis.Sol.C124_step`, `Wakis.Sol.C124_run`, `Wakis.GFld.C124_product_refuted`, `Wakis.Sol.C124_moved_refuted`
  * propext: `Wakis.GFld.C124_no_cupy`
  * none: `Wakis.GFld.C124_host_arithmetic`, `Wakis.GFld.C124_sum_refuted`
* **C125**
  * propext, Classical.choice, Quot.sound: `Wakis.Pic3.C125_sequence_partial`, `Wakis.Pic3.C125_surface_partial`, `Wakis.Pic3.C125_inspect3D`, `Wakis.Pic3.C125_show_refuted`, `Wakis.Pic3.C125_show_last_refuted`, `Wakis.Pic3.C125_stuck_refuted`, `Wakis.Pic3.C125_neither_refuted`, `Wakis.Pic3.C125_stale_refuted`, `Wakis.Pic3.C125_no_surface_refuted`
* **C126**
  * propext, Classical.choice, Quot.sound: `Wakis.Sol.C126_delay_partial`, `Wakis.Sol.C126_currents`, `Wakis.Sol.C126_profile`, `Wakis.Sol.C126_rectangular`, `Wakis.Sol.C126_last_layer_refuted`
* **C127**
  * propext, Classical.choice, Quot.sound: `Wakis.Sol.C127_electrostatic_partial`, `Wakis.Sol.C127_magnetostatic_partial`, `Wakis.Sol.C127_periodic_refuted`
* **C128**
  * propext, Classical.choice, Quot.sound: `Wakis.Sol.C128_out_of_reach_partial`, `Wakis.Sol.C128_driven_currents`, `Wakis.Sol.C128_current_refuted`
* **C129**
  * propext, Classical.choice, Quot.sound: `Wakis.View3.C129_mask_partial`, `Wakis.View3.C129_list_refuted`, `Wakis.View3.C129_colors_refuted`, `Wakis.View3.C129_name_refuted`
* **C13**
  * propext, Classical.choice, Quot.sound: `Wakis.Mpi.C13_gather`, `Wakis.Mpi.C13_gather_asField`, `Wakis.Mpi.C13_nonroot_zero`, `Wakis.Mpi.C13_open_slice`, `Wakis.Mpi.C13_run_gather_partial`, `Wakis.Mpi.C13_names`, `Wakis.Wake.C13_numpy_refuted`
* **C130**
  * propext, Classical.choice, Quot.sound: `Wakis.View3.C130_inspect_partial`, `Wakis.View3.C130_colors_refuted`
  * propext, Quot.sound: `Wakis.View3.C130_default_refuted`
* **C131**
  * propext, Quot.sound: `Wakis.View3.C131_boxes`, `Wakis.View3.C131_history`, `Wakis.View3.C131_beam`, `Wakis.View3.C131_mpi`, `Wakis.View3.C131_name_refuted`, `Wakis.View3.C131_setup_refuted`
  * propext, Classical.choice, Quot.sound: `Wakis.View3.C131_drawn_partial`, `Wakis.View3.C131_master_refuted`
* **C132**
  * propext, Classical.choice, Quot.sound: `Wakis.View3.C132_solids_partial`, `Wakis.View3.C132_missing_refuted`, `Wakis.View3.C132_vacuum_refuted`
* **C133**
  * propext, Classical.choice, Quot.sound: `Wakis.Src.C133_beam`, `Wakis.Src.C133_beam_shown_partial`, `Wakis.Src.C133_negative_refuted`, `Wakis.Src.C133_planeWave`, `Wakis.Src.C133_packet_partial`, `Wakis.Src.C133_packet_refuted`
* **C134**
  * propext, Classical.choice, Quot.sound: `Wakis.RunLog.C134_partial`, `Wakis.RunLog.C134_dt_partial`, `Wakis.RunLog.C134_dt_refuted`
  * propext, Quot.sound: `Wakis.RunLog.C134_actual`
  * propext: `Wakis.RunLog.C134_assigned_refuted`
  * none: `Wakis.RunLog.C134_skip_refuted`, `Wakis.RunLog.C134_folder_refuted`, `Wakis.RunLog.C134_shared_refuted`
* **C135**
  * propext, Classical.choice, Quot.sound: `Wakis.PlotRun.C135_emsolve`, `Wakis.PlotRun.C135_emsolve3d`, `Wakis.PlotRun.C135_wakesolve_partial`, `Wakis.PlotRun.C135_both_refuted`, `Wakis.PlotRun.C135_default_refuted`, `Wakis.PlotRun.C135_own_refuted`, `Wakis.PlotRun.C135_from_refuted`, `Wakis.PlotRun.C135_stl_refuted`, `Wakis.PlotRun.C135_defaults`
  * propext, Quot.sound: `Wakis.PlotRun.C135_options`
* **C136**
  * propext, Classical.choice, Quot.sound: `Wakis.Grid.SnapPts.C136_actual`, `Wakis.Grid.SnapPts.C136_picture`, `Wakis.Grid.SnapPts.C136_partial`, `Wakis.Grid.SnapPts.C136_moved_refuted`, `Wakis.Grid.SnapPts.C136_small_refuted`, `Wakis.Grid.SnapPts.C136_default_refuted`
* **C137**
  * propext, Classical.choice, Quot.sound: `Wakis.Wake.C137_wave`, `Wakis.Wake.C137_free`, `Wakis.Wake.C137_lossy`, `Wakis.Wake.C137_frequency`
* **C138**
  * propext, Classical.choice, Quot.sound: `Wakis.View3.C138_window_partial`, `Wakis.View3.C138_shared_refuted`
* **C139**
  * propext, Classical.choice, Quot.sound: `Wakis.View3.C139_voxels_partial`, `Wakis.View3.C139_limit_refuted`, `Wakis.View3.C139_abs_refuted`, `Wakis.View3.C139_zero_refuted`
* **C14**
  * propext, Classical.choice, Quot.sound: `Wakis.GridIO.C14_contents`, `Wakis.GridIO.C14_disjoint_partial`, `Wakis.GridIO.C14_sorted_partial`, `Wakis.GridIO.C14_actual`, `Wakis.GridIO.C14_refuted`, `Wakis.GridIO.C14_empty_refuted`, `Wakis.GridIO.C14_path_refuted`
* **C140**
  * propext, Classical.choice, Quot.sound: `Wakis.Geo.C140_partial`, `Wakis.Geo.C140_blank_refuted`, `Wakis.Geo.C140_wrapped_refuted`, `Wakis.Geo.C140_quote_refuted`, `Wakis.Geo.C140_colour_refuted`
* **C141**
  * propext, Classical.choice, Quot.sound: `Wakis.Fld.C141_partial`, `Wakis.Fld.C141_shape_refuted`
  * propext: `Wakis.Fld.C141_refused`
* **C142**
  * propext, Classical.choice, Quot.sound: `Wakis.Wake.C142_partial`, `Wakis.Wake.C142_refuted`
* **C143**
  * propext, Classical.choice, Quot.sound: `Wakis.Wake.C143_actual`, `Wakis.Wake.C143_graded`, `Wakis.Wake.C143_charge_partial`, `Wakis.Wake.C143_graded_refuted`, `Wakis.Wake.C143_planes_off`, `Wakis.Wake.C143_planes_graded`, `Wakis.Wake.C143_planes_charge_partial`
* **C144**
  * propext, Classical.choice, Quot.sound: `Wakis.Wake.C144_loss`, `Wakis.Wake.C144_both_planes`
* **C145**
  * propext, Classical.choice, Quot.sound: `Wakis.Wake.C145_undisturbed`, `Wakis.Wake.C145_samples_partial`, `Wakis.Wake.C145_wake_actual`, `Wakis.Wake.C145_refuted`
* **C146**
  * propext, Classical.choice, Quot.sound: `Wakis.Wake.C146_updates`, `Wakis.Wake.C146_steps`, `Wakis.Wake.C146_frames_partial`, `Wakis.Wake.C146_both_partial`, `Wakis.Wake.C146_final_partial`, `Wakis.MpiJ.C146_ends`, `Wakis.MpiJ.C146_steps_refuted`, `Wakis.Wake.C146_final_planes_partial`, `Wakis.Wake.C146_longitudinal_refuted`, `Wakis.Wake.C146_both_typed_partial`, `Wakis.Wake.C146_wake_partial`, `Wakis.Wake.C146_wake_refuted`, `Wakis.MpiJ.C146_stall_refuted`
  * propext, Quot.sound: `Wakis.MpiJ.C146_neighbours_refuted`
* **C147**
  * propext, Classical.choice, Quot.sound: `Wakis.Wake.C147_same_run`, `Wakis.Wake.C147_column`, `Wakis.Wake.C147_block_partial`, `Wakis.Wake.C147_bunch`, `Wakis.Wake.C147_beside`, `Wakis.MpiJ.C147_mpi_refuted`, `Wakis.MpiJ.C147_mpi_without_partial`
* **C148**
  * propext, Classical.choice, Quot.sound: `Wakis.Wake.C148_monitor_partial`
* **C15**
  * propext, Quot.sound: `Wakis.GridIO.C15_settings`, `Wakis.GridIO.C15_colour_list`, `Wakis.GridIO.C15_default_colours`, `Wakis.GridIO.C15_material_refuted`
  * none: `Wakis.GridIO.C15_file`, `Wakis.GridIO.C15_colour_refuted`
  * propext: `Wakis.GridIO.C15_missing_refuted`
* **C16**
  * propext, Classical.choice, Quot.sound: `Wakis.Sol.C16_H_update`, `Wakis.Sol.C16_E_update`, `Wakis.Sol.C16_interior`
* **C17**
  * propext, Classical.choice, Quot.sound: `Wakis.Sol.C17_flux_conserved`, `Wakis.Sol.C17_from_zero`
* **C18**
  * propext, Classical.choice, Quot.sound: `Wakis.Sol.C18_continuity`, `Wakis.Sol.C18_run`
* **C19**
  * propext, Classical.choice, Quot.sound: `Wakis.Sol.C19_energy_conserved`
* **C20**
  * propext, Classical.choice, Quot.sound: `Wakis.Sol.C20_cfl_stable_partial`, `Wakis.Sol.C20_bounded_energy_partial`, `Wakis.Sol.C20_values_bounded_partial`, `Wakis.Sol.C20_periodic_unstable`, `Wakis.Sol.C20_walls_bounded_partial`, `Wakis.Sol.C20_setUp_stable_partial`, `Wakis.Sol.C20_uniform_bounded_partial`, `Wakis.Sol.C20_setUp_uniform_partial`, `Wakis.Sol.C20_open_refuted`, `Wakis.Sol.C20_abc_refuted`
* **C21**
  * propext, Classical.choice, Quot.sound: `Wakis.Sol.C21_superposition`
* **C22**
  * propext, Classical.choice, Quot.sound: `Wakis.Sol.C22_reset`, `Wakis.Sol.C22_quiescent`, `Wakis.Sol.C22_fresh_and_reset`
* **C23**
  * propext, Classical.choice, Quot.sound: `Wakis.Sol.C23_pec_frozen`, `Wakis.Sol.C23_pec_zero`
* **C24**
  * propext, Classical.choice, Quot.sound: `Wakis.Sol.C24_tangential_zero_partial`, `Wakis.Sol.C24_closed_box`, `Wakis.Sol.C24_refuted`
* **C25**
  * propext, Classical.choice, Quot.sound: `Wakis.Sol.C25_H_update`, `Wakis.Sol.C25_E_update`, `Wakis.Sol.C25_clean_forever`, `Wakis.Sol.C25_refuted`, `Wakis.Sol.setPlane_eq_setitem`
* **C26**
  * propext, Classical.choice, Quot.sound: `Wakis.Sol.C26_tangential_zero_partial`, `Wakis.Sol.C26_pec_faces_frozen`, `Wakis.Sol.C26_spelling_refuted`, `Wakis.Sol.C26_side_effect_refuted`
* **C27**
  * propext, Classical.choice, Quot.sound: `Wakis.Sol.C27_actual_x`, `Wakis.Sol.C27_actual_y`, `Wakis.Sol.C27_actual_z`, `Wakis.Sol.C27_metric_partial`, `Wakis.Sol.C27_refuted`
* **C28**
  * propext, Classical.choice, Quot.sound: `Wakis.Sol.C28_case_insensitive_partial`, `Wakis.Sol.C28_refuted`
* **C29**
  * propext, Classical.choice, Quot.sound: `Wakis.Sol.C29_setup_succeeds_iff`, `Wakis.Sol.C29_last_solid_wins`, `Wakis.Sol.C29_background`, `Wakis.Sol.C29_conductivity_partial`, `Wakis.Sol.C29_conductivity_actual`, `Wakis.Sol.C29_flag_off`, `Wakis.Sol.C29_disjoint_order`, `Wakis.Sol.C29_refuted`
* **C30**
  * propext, Classical.choice, Quot.sound: `Wakis.Sol.C30_limits`, `Wakis.Sol.C30_cfl`, `Wakis.Sol.C30_damping`, `Wakis.Sol.C30_step_damping`, `Wakis.Sol.C30_step_current`, `Wakis.Sol.C30_setUp_damping`, `Wakis.Sol.C30_no_conducting_cell_fails`
* **C31**
  * propext, Classical.choice, Quot.sound: `Wakis.Sol.C31_outside_unchanged`, `Wakis.Sol.C31_positive`, `Wakis.Sol.C31_profile_partial`, `Wakis.Sol.C31_single_face_succeeds_iff`, `Wakis.Sol.C31_reference_refuted`, `Wakis.Sol.C31_overlap_refuted`
* **C32**
  * propext, Classical.choice, Quot.sound: `Wakis.Sol.C32_same_dt_partial`, `Wakis.Sol.C32_refuted`, `Wakis.Sol.C32_rank_fails`
* **C33**
  * propext, Classical.choice, Quot.sound: `Wakis.Mpi.C33_halo_exchange`, `Wakis.Mpi.C33_run_deterministic`, `Wakis.Mpi.C33_slabs`
* **C34**
  * propext, Classical.choice, Quot.sound: `Wakis.Mpi.C34_distributed_equals_serial_partial`, `Wakis.Mpi.C34_tensors_partial`, `Wakis.Mpi.C34_materials_restrict`, `Wakis.Mpi.C34_pml_refuted`, `Wakis.Mpi.C34_pmc_refuted`, `Wakis.Mpi.C34_periodic_refuted`, `Wakis.Mpi.C34_driven_refuted`
* **C35**
  * propext, Quot.sound: `Wakis.Sol.C35_restore`
  * propext, Classical.choice, Quot.sound: `Wakis.Sol.C35_resume_partial`, `Wakis.Sol.C35_resume_fresh_partial`, `Wakis.Sol.C35_refuted`
  * Quot.sound: `Wakis.Sol.C35_mpi_refuted`
* **C36**
  * propext, Classical.choice, Quot.sound: `Wakis.Sol.C36_update_partial`, `Wakis.Sol.C36_after_step`, `Wakis.Sol.C36_sigma_ignored`, `Wakis.Sol.C36_refuted`, `Wakis.Sol.C36_ghosts_refuted`, `Wakis.Sol.C36_named_partial`, `Wakis.Sol.C36_gpu_refuted`, `Wakis.Sol.C36_gpu_partial`
* **C37**
  * propext, Classical.choice, Quot.sound: `Wakis.Sol.C37_grid_unchanged_partial`, `Wakis.Sol.C37_refuted`
* **C38**
  * propext, Classical.choice, Quot.sound: `Wakis.Sol.C38_two_sided`, `Wakis.Sol.C38_completes`, `Wakis.Sol.C38_gpu_partial`, `Wakis.Sol.C38_gpu_low`, `Wakis.Sol.C38_cpu_actual`, `Wakis.Sol.C38_gpu_high_refuted`, `Wakis.Sol.C38_cpu_refuted`, `Wakis.Sol.C38_gpu_first`, `Wakis.Sol.C38_gpu_low_first`
* **C39**
  * propext, Classical.choice, Quot.sound: `Wakis.Sol.C39_order`, `Wakis.Sol.C39_calls`, `Wakis.Sol.C39_split`, `Wakis.Sol.C39_split_abc`, `Wakis.Sol.C39_source_split_refuted`
* **C40**
  * propext, Classical.choice, Quot.sound: `Wakis.Sol.C40_refuted`, `Wakis.Sol.C40_hyp`, `Wakis.Sol.C40_partial`, `Wakis.Sol.C40_exact`
* **C41**
  * propext, Classical.choice, Quot.sound: `Wakis.Src.C41_beam`, `Wakis.Src.C41_planeWave`, `Wakis.Src.C41_wavePacket`, `Wakis.Src.C41_dipole`, `Wakis.Src.C41_pulse`, `Wakis.Src.C41_dipole_field`, `Wakis.Src.C41_pulse_field`, `Wakis.Src.C41_dipole_value`
* **C42**
  * propext, Classical.choice, Quot.sound: `Wakis.Src.C42_current`, `Wakis.Src.C42_charge`, `Wakis.Src.C42_line_charge`, `Wakis.Src.C42_updates`, `Wakis.Src.C42_mpi`, `Wakis.Src.lineDensity_integral`
* **C43**
  * propext, Classical.choice, Quot.sound: `Wakis.Wake.C43_partial`, `Wakis.Wake.C43_offset`, `Wakis.Wake.C43_slow_refuted`, `Wakis.Wake.C43_given_refuted`
* **C44**
  * propext, Classical.choice, Quot.sound: `Wakis.Src.C44_nearest`, `Wakis.Src.C44_unique`, `Wakis.Src.C44_inside`
* **C45**
  * propext, Classical.choice, Quot.sound: `Wakis.Src.C45_range`, `Wakis.Src.C45_after`, `Wakis.Src.C45_before_rectangular`, `Wakis.Src.C45_before_partial`, `Wakis.Src.C45_before_refuted`, `Wakis.Src.C45_default_refuted`, `Wakis.Src.C45_default_silent`
* **C46**
  * propext, Classical.choice, Quot.sound: `Wakis.Wake.C46_nonneg`, `Wakis.Wake.C46_recorded`, `Wakis.Wake.C46_at_most`, `Wakis.Wake.C46_last_sample`
* **C47**
  * propext, Classical.choice, Quot.sound: `Wakis.Wake.C47_line_integral`, `Wakis.Wake.C47_linear`, `Wakis.Wake.C47_skip_refuted`, `Wakis.Wake.C47_mpi_refuted`, `Wakis.Wake.C47_block_actual`, `Wakis.Wake.C47_block_refuted`, `Wakis.Wake.C47_single_refuted`, `Wakis.Wake.C47_mpi_block_refuted`
* **C48**
  * propext, Classical.choice, Quot.sound: `Wakis.Wake.C48_cell_partial`, `Wakis.Wake.C48_actual`, `Wakis.Wake.C48_refuted`
* **C49**
  * propext, Classical.choice, Quot.sound: `Wakis.Wake.C49_order_partial`, `Wakis.Wake.C49_frames_partial`, `Wakis.Wake.C49_long_refuted`, `Wakis.Wake.C49_metadata_refuted`
  * propext, Quot.sound: `Wakis.Wake.C49_metadata_partial`, `Wakis.Wake.C49_guard_partial`
* **C50**
  * propext, Classical.choice, Quot.sound: `Wakis.Wake.C50_panofsky`, `Wakis.Wake.C50_uniform`, `Wakis.Wake.C50_mirror`, `Wakis.Wake.C50_linear`, `Wakis.Wake.C50_step_partial`, `Wakis.Wake.C50_step_refuted`
* **C51**
  * propext, Classical.choice, Quot.sound: `Wakis.Wake.C51_axis`, `Wakis.Wake.C51_coarse_refuted`, `Wakis.Wake.C51_truncated_refuted`
* **C52**
  * propext, Classical.choice, Quot.sound: `Wakis.Wake.C52_linear`, `Wakis.Wake.C52_fresh_partial`, `Wakis.Wake.C52_stale`, `Wakis.Wake.C52_refuted`
* **C53**
  * propext, Classical.choice, Quot.sound: `Wakis.Wake.C53_actual`, `Wakis.Wake.C53_partial`, `Wakis.Wake.C53_wpy_refuted`, `Wakis.Wake.C53_longitudinal_refuted`, `Wakis.Wake.C53_mixed`
* **C54**
  * propext, Classical.choice, Quot.sound: `Wakis.Wake.C54_split`, `Wakis.Wake.C54_conserves`, `Wakis.Wake.C54_step`, `Wakis.Wake.C54_position`
  * propext, Quot.sound: `Wakis.Wake.C54_inside`
* **C55**
  * propext, Classical.choice, Quot.sound: `Wakis.Wake.C55_fourier_sum`, `Wakis.Wake.C55_independent`, `Wakis.Wake.C55_linear`
* **C56**
  * propext, Quot.sound: `Wakis.Cst.C56_bijective`
  * propext, Classical.choice, Quot.sound: `Wakis.Cst.C56_import_partial`, `Wakis.Cst.C56_refuted`
  * propext: `Wakis.Cst.C56_single_refuted`
* **C57**
  * propext, Classical.choice, Quot.sound: `Wakis.Geo.C57_consistent`, `Wakis.Geo.C57_names`, `Wakis.Geo.C57_distinct`, `Wakis.Geo.C57_sorted_partial`, `Wakis.Geo.C57_sorted_refuted`, `Wakis.Geo.C57_colours_partial`, `Wakis.Geo.C57_export`, `Wakis.Geo.C57_materials`
  * propext, Quot.sound: `Wakis.Geo.C57_all_solids`, `Wakis.Geo.C57_colours_refuted`, `Wakis.Geo.C57_material_of_layers`
* **C58**
  * propext, Classical.choice, Quot.sound: `Wakis.Geo.C58_actual`, `Wakis.Geo.C58_partial`, `Wakis.Geo.C58_metres`, `Wakis.Geo.C58_refuted`, `Wakis.Geo.C58_late_refuted`
* **C59**
  * propext, Classical.choice, Quot.sound: `Wakis.Stl.C59_order`, `Wakis.Stl.C59_shape`, `Wakis.Stl.C59_proper`, `Wakis.Stl.C59_translation`, `Wakis.Stl.C59_order_matters`
* **C60**
  * propext: `Wakis.Log.C60_partial`, `Wakis.Log.C60_actual`, `Wakis.Log.C60_complex_refuted`, `Wakis.Log.C60_key_refuted`, `Wakis.Log.C60_folder`
* **C61**
  * propext, Classical.choice, Quot.sound: `Wakis.Sol.C61_tensors_partial`, `Wakis.Sol.C61_dt_partial`, `Wakis.Sol.C61_refuted`, `Wakis.Sol.C61_without`
* **C62**
  * propext, Classical.choice, Quot.sound: `Wakis.Src.C62_packet_partial`, `Wakis.Src.C62_actual`, `Wakis.Src.C62_rectangular_refuted`, `Wakis.Src.C62_parameters`, `Wakis.Src.C62_time`
* **C63**
  * propext, Classical.choice, Quot.sound: `Wakis.Src.C63_off`, `Wakis.Src.C63_nodes_refuted`, `Wakis.Src.C63_duration_partial`
* **C64**
  * propext, Classical.choice, Quot.sound: `Wakis.Src.C64_packet`, `Wakis.Src.C64_planeWave_actual`, `Wakis.Src.C64_planeWave_refuted`
* **C65**
  * propext, Classical.choice, Quot.sound: `Wakis.Wake.C65_records`, `Wakis.Wake.C65_wake`, `Wakis.Wake.C65_both_partial`, `Wakis.Wake.C65_edge_refuted`
* **C66**
  * propext, Classical.choice, Quot.sound: `Wakis.Wake.C66_back_partial`, `Wakis.Wake.C66_refuted`
* **C67**
  * propext, Classical.choice, Quot.sound: `Wakis.Wake.C67_current_partial`, `Wakis.Wake.C67_failed`, `Wakis.Wake.C67_refuted`
* **C68**
  * propext, Classical.choice, Quot.sound: `Wakis.Wake.C68_actual`, `Wakis.Wake.C68_refuted`
* **C69**
  * propext, Classical.choice, Quot.sound: `Wakis.Wake.C69_roundtrip_partial`, `Wakis.Wake.C69_plain_refuted`, `Wakis.Wake.C69_equal_refuted`, `Wakis.Wake.C69_single_refuted`
* **C70**
  * propext, Classical.choice, Quot.sound: `Wakis.GridIO.C70_masks_aligned`
* **C71**
  * propext, Classical.choice, Quot.sound: `Wakis.Geo.C71_library_partial`, `Wakis.Geo.C71_refuted`
* **C72**
  * propext, Classical.choice, Quot.sound: `Wakis.Wake.C72_values_partial`, `Wakis.Wake.C72_nodes`, `Wakis.Wake.C72_outside`, `Wakis.Wake.C72_bounds`, `Wakis.Wake.C72_normalised`, `Wakis.Wake.C72_used`, `Wakis.Wake.C72_outside_refuted`
  * propext, Quot.sound: `Wakis.Wake.C72_dict_refuted`
* **C73**
  * propext, Classical.choice, Quot.sound: `Wakis.Wake.C73_forms`, `Wakis.Wake.C73_axis_partial`, `Wakis.Wake.C73_tone`, `Wakis.Wake.C73_linear`, `Wakis.Wake.C73_fmax_partial`, `Wakis.Wake.C73_truncated_refuted`, `Wakis.Wake.C73_last_sample_refuted`
* **C74**
  * propext, Classical.choice, Quot.sound: `Wakis.Wake.C74_forms_partial`, `Wakis.Wake.C74_values_partial`, `Wakis.Wake.C74_times`, `Wakis.Wake.C74_roundtrip`, `Wakis.Wake.C74_two_refuted`, `Wakis.Wake.C74_time_refuted`, `Wakis.Wake.C74_roundtrip_refuted`, `Wakis.Wake.C74_last_value_refuted`
* **C75**
  * propext, Classical.choice, Quot.sound: `Wakis.Sol.C75_faraday`, `Wakis.Sol.C75_ampere_partial`, `Wakis.Sol.C75_ampere_actual`, `Wakis.Sol.C75_graded`, `Wakis.Sol.C75_ampere_refuted`, `Wakis.Sol.C16_interior_E`
* **C76**
  * propext, Classical.choice, Quot.sound: `Wakis.Grid.C76_bounds`, `Wakis.Grid.C76_snaps`, `Wakis.Grid.C76_insert_accepts`, `Wakis.Grid.C76_insert_count`, `Wakis.Grid.C76_snaps_partial`, `Wakis.Grid.C76_sorted_partial`, `Wakis.Grid.C76_neighbor_partial`, `Wakis.Grid.C76_outside_refuted`, `Wakis.Grid.C76_cells_refuted`, `Wakis.Grid.C76_neighbor_refuted`, `Wakis.Grid.C76_domain_refuted`, `Wakis.Grid.C76_objective_refuted`
  * propext, Quot.sound: `Wakis.Grid.C76_neighbor_count`, `Wakis.Grid.C76_unknown`, `Wakis.Grid.C76_subdivision_refuted`
* **C77**
  * propext, Quot.sound: `Wakis.Grid.C77_own_axes_partial`, `Wakis.Grid.C77_extents`, `Wakis.Grid.C77_agree`, `Wakis.Grid.C77_refused`, `Wakis.Grid.C77_list_refuted`, `Wakis.Grid.C77_verbose_refuted`, `Wakis.Grid.C77_snap_points_refuted`
  * propext, Classical.choice, Quot.sound: `Wakis.Grid.C77_mpi_refined_refuted`, `Wakis.Grid.C77_log_refuted`, `Wakis.Grid.C77_counts`
* **C78**
  * propext, Classical.choice, Quot.sound: `Wakis.Grid.C78_gathered`, `Wakis.Grid.C78_refined_refuted`
* **C79**
  * propext, Classical.choice, Quot.sound: `Wakis.Grid.C79_mask_partial`, `Wakis.Grid.C79_mpi`, `Wakis.Grid.C79_thin_refuted`
  * propext, Quot.sound: `Wakis.Grid.C79_monotone`, `Wakis.Grid.C79_unit_refuted`
* **C80**
  * propext, Quot.sound: `Wakis.Grid.C80_names_partial`, `Wakis.Grid.C80_values`
  * propext, Classical.choice, Quot.sound: `Wakis.Grid.C80_library`, `Wakis.Grid.C80_case_refuted`, `Wakis.Grid.C80_inf_refuted`
* **C81**
  * propext, Classical.choice, Quot.sound: `Wakis.Sol.C81_lossy_stable`, `Wakis.Sol.C81_high_cfl_unstable`
* **C82**
  * propext, Classical.choice, Quot.sound: `Wakis.Src.C82_beam`, `Wakis.Src.C82_planeWave_first_layer_partial`, `Wakis.Src.C82_dipole_first_layer_partial`, `Wakis.Src.C82_dipole_refuted`, `Wakis.Src.C82_dipole_out_of_slab`, `Wakis.Src.C82_dipole_frequency_refuted`, `Wakis.Src.C82_pulse_first_layer_partial`, `Wakis.Src.C82_wavePacket_first_layer_partial`, `Wakis.Src.C82_planeWave_refuted`, `Wakis.Src.C82_wavePacket_refuted`, `Wakis.Src.C82_pulse_refuted`
* **C83**
  * propext, Classical.choice, Quot.sound: `Wakis.Cond.C83_box_complementary`, `Wakis.Cond.C83_plane2_complementary`, `Wakis.Cond.C83_circle_complementary`, `Wakis.Cond.C83_space_complementary`, `Wakis.Cond.C83_none_complementary`, `Wakis.Cond.C83_assembly_complementary`, `Wakis.Cond.C83_assembly_inside`, `Wakis.Cond.C83_impFunc_partial`, `Wakis.Cond.C83_impFunc_refuted`, `Wakis.Cond.C83_inSphere_out_refuted`, `Wakis.Cond.C83_plane2_bad_sign`, `Wakis.Cond.C83_assembly`, `Wakis.Cond.C83_assembly_empty`, `Wakis.Cond.C83_box`, `Wakis.Cond.C83_plane2_partial`, `Wakis.Cond.C83_plane2_tol_refuted`, `Wakis.Cond.C83_plane2_flat_refuted`, `Wakis.Cond.C83_outCircle`, `Wakis.Cond.C83_inCircle_partial`, `Wakis.Cond.C83_inCircle_refuted`, `Wakis.Cond.C83_outSphere_partial`, `Wakis.Cond.C83_inSphere_partial`, `Wakis.Cond.C83_inSphere_miss_refuted`, `Wakis.Cond.C83_outSphere_refuted`, `Wakis.Cond.C83_plane3_partial`, `Wakis.Cond.C83_plane3_parallel_refuted`, `Wakis.Cond.C83_none_refuted`
* **C84**
  * propext, Classical.choice, Quot.sound: `Wakis.Cond.C84_edge_partial`, `Wakis.Cond.C84_plane2`, `Wakis.Cond.C84_plane3`, `Wakis.Cond.C84_none`, `Wakis.Cond.C84_small_refuted`, `Wakis.Cond.C84_narrow_refuted`
* **C85**
  * propext, Classical.choice, Quot.sound: `Wakis.Cond.C85_mesh2`, `Wakis.Cond.C85_mesh3_partial`, `Wakis.Cond.C85_mesh3_refuted`
* **C86**
  * propext, Classical.choice, Quot.sound: `Wakis.Cond.C86_area_plane`, `Wakis.Cond.C86_bounds`, `Wakis.Cond.C86_ends`
* **C87**
  * propext, Classical.choice, Quot.sound: `Wakis.Cond.C87_unstable_partial`, `Wakis.Cond.C87_marks`, `Wakis.Cond.C87_small_cells_refuted`, `Wakis.Cond.C87_large_cells_refuted`
* **C88**
  * propext, Classical.choice, Quot.sound: `Wakis.Cond.C88_constructor_refuted`, `Wakis.Cond.C88_success_partial`, `Wakis.Cond.C88_loop_ends`, `Wakis.Cond.C88_area_conserved`, `Wakis.Cond.C88_ect_refuted`, `Wakis.Cond.C88_empty_grid_refuted`
* **C89**
  * propext, Classical.choice, Quot.sound: `Wakis.S2.C89_quiet`, `Wakis.S2.C89_quiet_start`, `Wakis.S2.C89_energy`, `Wakis.S2.C89_conserved`, `Wakis.S2.C89_stable`
* **C90**
  * propext, Classical.choice, Quot.sound: `Wakis.S2.C90_quiet`, `Wakis.S2.C90_quiet_start`, `Wakis.S2.C90_energy`, `Wakis.S2.C90_conserved`, `Wakis.S2.C90_stable`, `Wakis.S2.C90_speed_refuted`, `Wakis.S2.C90_fdtd_partial`, `Wakis.S2.C90_fdtd_refuted`
* **C91**
  * propext, Classical.choice, Quot.sound: `Wakis.S2.C91_flux_partial`, `Wakis.S2.C91_dm`, `Wakis.S2.C91_constructed`
* **C92**
  * none: `Wakis.S2.C92_built_partial`, `Wakis.S2.C92_error_refuted`, `Wakis.S2.C92_layers`
  * propext, Classical.choice, Quot.sound: `Wakis.S2.C92_blocks`, `Wakis.S2.C92_wired_partial`, `Wakis.S2.C92_corner_refuted`, `Wakis.S2.C92_totals_partial`, `Wakis.S2.C92_graded`
* **C93**
  * propext, Classical.choice, Quot.sound: `Wakis.S2.C93_monolith`, `Wakis.S2.C93_axes`, `Wakis.S2.C93_coeffs`, `Wakis.S2.C93_profile`, `Wakis.S2.C93_mirror_partial`, `Wakis.S2.C93_vacuum`, `Wakis.S2.C93_dm_refuted`, `Wakis.S2.C93_seam_current_refuted`
* **C94**
  * propext, Classical.choice, Quot.sound: `Wakis.L3.C94_quiet`, `Wakis.L3.C94_quiet_start`, `Wakis.L3.C94_energy`, `Wakis.L3.C94_conserved`, `Wakis.L3.C94_stable`
* **C95**
  * propext, Classical.choice, Quot.sound: `Wakis.L3.C95_quiet`, `Wakis.L3.C95_quiet_start`, `Wakis.L3.C95_energy`, `Wakis.L3.C95_conserved`, `Wakis.L3.C95_stable`, `Wakis.L3.C95_stable_default`, `Wakis.L3.C95_fdtd_partial`, `Wakis.L3.C95_speed_refuted`, `Wakis.L3.C95_one_step`, `Wakis.L3.C95_ect_refuted`, `Wakis.L3.C95_names`
* **C96**
  * propext, Classical.choice, Quot.sound: `Wakis.L3.C96_blocks`, `Wakis.L3.C96_sizes_partial`, `Wakis.L3.C96_corner_refuted`, `Wakis.L3.C96_count_refuted`, `Wakis.L3.C96_built_partial`, `Wakis.L3.C96_all_partial`, `Wakis.L3.C96_conductivity_partial`, `Wakis.L3.C96_highcorner_refuted`, `Wakis.L3.C96_strength_partial`
* **C97**
  * propext, Classical.choice, Quot.sound: `Wakis.L3.C97_monolith`, `Wakis.L3.C97_axes`, `Wakis.L3.C97_arrays`, `Wakis.L3.C97_no_layers`, `Wakis.L3.C97_dm_refuted`, `Wakis.L3.C97_seam_current_refuted`
* **C98**
  * propext, Classical.choice, Quot.sound: `Wakis.Cond.C98_area_plane`, `Wakis.Cond.C98_ect_refuted`, `Wakis.Cond.C98_empty_box_refuted`, `Wakis.Cond.C98_fit_partial`
* **C99**
  * propext, Classical.choice, Quot.sound: `Wakis.Mpi.C99_open_refuted`, `Wakis.Mpi.C99_pml_refuted`, `Wakis.Mpi.C34_distributed_equals_serial_partial`, `Wakis.Mpi.C99_high_refuted`
