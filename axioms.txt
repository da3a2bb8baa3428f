Pymech.C01_roundtrip: propext, Classical.choice, Quot.sound
Pymech.C01_time_exact: propext, Classical.choice, Quot.sound
Pymech.C02_rounded: propext, Classical.choice, Quot.sound
Pymech.C02_stable: propext, Classical.choice, Quot.sound
Pymech.C03_endian: propext, Classical.choice, Quot.sound
Pymech.C03_unknown: propext, Classical.choice, Quot.sound
Pymech.C04_unreadable: propext, Classical.choice, Quot.sound
Pymech.C04_false: propext, Classical.choice, Quot.sound
Pymech.C04_partial: propext, Classical.choice, Quot.sound
Pymech.C05_layout: propext, Classical.choice, Quot.sound
Pymech.C05_size: propext, Classical.choice, Quot.sound
Pymech.C06_header: propext, Classical.choice, Quot.sound
Pymech.C06_header_exact: propext, Classical.choice, Quot.sound
Pymech.C07_variables: propext, Classical.choice, Quot.sound
Pymech.C08_short: propext, Classical.choice, Quot.sound
Pymech.C08_wordsize: propext, Quot.sound
Pymech.C08_no_variables: propext, Quot.sound
Pymech.C08_sound: propext, Classical.choice, Quot.sound
Pymech.C08_derived: propext, Classical.choice, Quot.sound
Pymech.C09_skip_vars: propext, Classical.choice, Quot.sound
Pymech.C10_false: propext, Classical.choice, Quot.sound
Pymech.C10_partial: propext, Classical.choice, Quot.sound
Pymech.C100: propext, Classical.choice, Quot.sound
Pymech.C101_partial: propext, Classical.choice, Quot.sound
Pymech.C101_false: propext, Classical.choice, Quot.sound
Pymech.C101_near: propext, Classical.choice, Quot.sound
Pymech.C101_direction: propext, Classical.choice, Quot.sound
Pymech.C102_partial: propext, Classical.choice, Quot.sound
Pymech.C102_false: propext, Classical.choice, Quot.sound
Pymech.C102_secant: propext, Classical.choice, Quot.sound
Pymech.C103_partial: propext, Classical.choice, Quot.sound
Pymech.C103_false: propext, Classical.choice, Quot.sound
Pymech.C103_accepts: propext, Classical.choice, Quot.sound
Pymech.C103_no_coordinates: propext, Classical.choice, Quot.sound
Pymech.C104: propext, Classical.choice, Quot.sound
Pymech.C104_between: propext, Classical.choice, Quot.sound
Pymech.C104_symmetric: propext, Classical.choice, Quot.sound
Pymech.C105: propext, Classical.choice, Quot.sound
Pymech.C105_check: propext, Classical.choice, Quot.sound
Pymech.C106: propext, Classical.choice, Quot.sound
Pymech.C106_sizes: propext, Classical.choice, Quot.sound
Pymech.C106_general: propext, Classical.choice, Quot.sound
Pymech.C107: propext, Classical.choice, Quot.sound
Pymech.C107_edges: propext, Classical.choice, Quot.sound
Pymech.C108_radius: propext, Classical.choice, Quot.sound
Pymech.C108_mid: propext, Classical.choice, Quot.sound
Pymech.C108_ring: propext, Classical.choice, Quot.sound
Pymech.C108_extrude: propext, Classical.choice, Quot.sound
Pymech.C109_partial: propext, Classical.choice, Quot.sound
Pymech.C109_no_dummy_partial: propext, Classical.choice, Quot.sound
Pymech.C109_false: propext, Classical.choice, Quot.sound
Pymech.C11_blocks: propext, Classical.choice, Quot.sound
Pymech.C11_zero: propext, Classical.choice, Quot.sound
Pymech.C11_map: propext, Classical.choice, Quot.sound
Pymech.C11_raises: propext, Classical.choice, Quot.sound
Pymech.C11_negative_count: propext, Classical.choice, Quot.sound
Pymech.C110_header: propext, Classical.choice, Quot.sound
Pymech.C110_refused: propext, Classical.choice, Quot.sound
Pymech.C110_int: propext, Quot.sound
Pymech.C110_float: propext, Classical.choice, Quot.sound
Pymech.nearest_ofRat: propext, Classical.choice, Quot.sound
Pymech.nearest_unique: propext, Classical.choice, Quot.sound
Pymech.decWord_unique: propext, Classical.choice, Quot.sound
Pymech.splitT_iff: propext, Classical.choice, Quot.sound
Pymech.C111_double: propext, Classical.choice, Quot.sound
Pymech.C111_single: propext, Classical.choice, Quot.sound
Pymech.C111_widened: propext, Classical.choice, Quot.sound
Pymech.C112_false: propext, Classical.choice, Quot.sound
Pymech.C112_unreadable: propext, Classical.choice, Quot.sound
Pymech.C112_partial: propext, Classical.choice, Quot.sound
Pymech.C113_partial: propext, Classical.choice, Quot.sound
Pymech.C113_false: propext, Classical.choice, Quot.sound
Pymech.C113_stable: propext, Classical.choice, Quot.sound
Pymech.C114_partial: propext, Classical.choice, Quot.sound
Pymech.C114_false: propext, Classical.choice, Quot.sound
Pymech.C114_tiny: propext, Classical.choice, Quot.sound
Pymech.C115_partial: propext, Classical.choice, Quot.sound
Pymech.C115_false: propext, Classical.choice, Quot.sound
Pymech.C115_vertices: propext, Classical.choice, Quot.sound
Pymech.C115_rows: propext, Classical.choice, Quot.sound
Pymech.C115_readable: propext, Classical.choice, Quot.sound
Pymech.C116: propext, Classical.choice, Quot.sound
Pymech.C117_partial: propext, Classical.choice, Quot.sound
Pymech.C117_false: propext, Classical.choice, Quot.sound
Pymech.C118_partial: propext, Classical.choice, Quot.sound
Pymech.C118_false: propext, Classical.choice, Quot.sound
Pymech.C118_refused: propext, Classical.choice, Quot.sound
Pymech.C119_partial: propext, Classical.choice, Quot.sound
Pymech.C119_false: propext, Classical.choice, Quot.sound
Pymech.C12_truncated: propext, Classical.choice, Quot.sound
Pymech.C12_any: propext, Classical.choice, Quot.sound
Pymech.C120_partial: propext, Classical.choice, Quot.sound
Pymech.C120_size: propext, Classical.choice, Quot.sound
Pymech.C120_read: propext, Classical.choice, Quot.sound
Pymech.C120_false: propext, Classical.choice, Quot.sound
Pymech.C120_written_partial: propext, Classical.choice, Quot.sound
Pymech.C121_partial: propext, Classical.choice, Quot.sound
Pymech.C121_written_partial: propext, Classical.choice, Quot.sound
Pymech.C121_false: propext, Classical.choice, Quot.sound
Pymech.C121_number: propext, Classical.choice, Quot.sound
Pymech.C122_plane: propext, Classical.choice, Quot.sound
Pymech.C122_plane_exact: propext, Classical.choice, Quot.sound
Pymech.C122_dns: propext, Classical.choice, Quot.sound
Pymech.C122_dns_refused: propext, Classical.choice, Quot.sound
Pymech.C123_merge: propext, Classical.choice, Quot.sound
Pymech.C123_generate: propext, Classical.choice, Quot.sound
Pymech.C123_delete: propext, Classical.choice, Quot.sound
Pymech.C123_keep: propext, Classical.choice, Quot.sound
Pymech.C123_extrude: propext, Classical.choice, Quot.sound
Pymech.C124_partial: propext, Classical.choice, Quot.sound
Pymech.C124_false: propext, Classical.choice, Quot.sound
Pymech.C125: propext, Classical.choice, Quot.sound
Pymech.C125_id: propext, Classical.choice, Quot.sound
Pymech.C125_inverse: propext, Classical.choice, Quot.sound
Pymech.C126: propext, Classical.choice, Quot.sound
Pymech.C126_all: propext, Classical.choice, Quot.sound
Pymech.C127: propext, Classical.choice, Quot.sound
Pymech.C128_merge: propext, Classical.choice, Quot.sound
Pymech.C128_keep: propext, Classical.choice, Quot.sound
Pymech.C128_extrude: propext, Classical.choice, Quot.sound
Pymech.C129: propext, Classical.choice, Quot.sound
Pymech.C129_plain: propext, Classical.choice, Quot.sound
Pymech.C129_truncated: propext, Classical.choice, Quot.sound
Pymech.C129_written: propext, Classical.choice, Quot.sound
Pymech.C129_roundtrip: propext, Classical.choice, Quot.sound
Pymech.C13_tag: propext, Classical.choice, Quot.sound
Pymech.C13_tag_error: propext, Classical.choice, Quot.sound
Pymech.C13_written: propext, Classical.choice, Quot.sound
Pymech.C130_partial: propext, Classical.choice, Quot.sound
Pymech.C130_lost: propext, Classical.choice, Quot.sound
Pymech.C130_false: propext, Classical.choice, Quot.sound
Pymech.C130_invalid: propext, Classical.choice, Quot.sound
Pymech.C131: propext, Classical.choice, Quot.sound
Pymech.C131_none: propext, Classical.choice, Quot.sound
Pymech.C131_plane: propext, Classical.choice, Quot.sound
Pymech.C132: propext, Classical.choice, Quot.sound
Pymech.C132_shared: propext, Classical.choice, Quot.sound
Pymech.C132_links: propext, Classical.choice, Quot.sound
Pymech.C133_partial: propext, Classical.choice, Quot.sound
Pymech.C133_false: propext, Classical.choice, Quot.sound
Pymech.C134_partial: propext, Classical.choice, Quot.sound
Pymech.C134_false: propext, Classical.choice, Quot.sound
Pymech.check_connectivityF_iff: propext, Classical.choice, Quot.sound
Pymech.C135: propext, Classical.choice, Quot.sound
Pymech.C135_links: propext, Classical.choice, Quot.sound
Pymech.C135_box: propext, Classical.choice, Quot.sound
Pymech.C136_partial: propext, Classical.choice, Quot.sound
Pymech.C136_false: propext, Classical.choice, Quot.sound
Pymech.C137: propext, Classical.choice, Quot.sound
Pymech.C137_mid: propext, Classical.choice, Quot.sound
Pymech.C137_links: propext, Classical.choice, Quot.sound
Pymech.C138: propext, Classical.choice, Quot.sound
Pymech.C138_straight: propext, Classical.choice, Quot.sound
Pymech.libm_even: propext, Classical.choice, Quot.sound
Pymech.C139_partial: propext, Classical.choice, Quot.sound
Pymech.C139_false: propext, Classical.choice, Quot.sound
Pymech.C14_writenek_false: propext, Classical.choice, Quot.sound
Pymech.C14_writenek_nonempty: propext, Classical.choice, Quot.sound
Pymech.C14_writere2: propext, Classical.choice, Quot.sound
Pymech.C140: propext, Classical.choice, Quot.sound
Pymech.C140_order: propext, Classical.choice, Quot.sound
Pymech.npMin_nan: propext, Quot.sound
Pymech.npMax_nan: propext, Quot.sound
Pymech.C141: propext, Classical.choice, Quot.sound
Pymech.mergeF_exact: propext, Classical.choice, Quot.sound
Pymech.C142: propext, Classical.choice, Quot.sound
Pymech.C142_complete: propext, Classical.choice, Quot.sound
Pymech.C142_raises: propext, Classical.choice, Quot.sound
Pymech.generateWith_sim: propext, Classical.choice, Quot.sound
Pymech.C143_partial: propext, Classical.choice, Quot.sound
Pymech.C143_false: propext, Classical.choice, Quot.sound
Pymech.generateF_links: propext, Classical.choice, Quot.sound
Pymech.C144_partial: propext, Classical.choice, Quot.sound
Pymech.C144_false: propext, Classical.choice, Quot.sound
Pymech.C145: propext, Classical.choice, Quot.sound
Pymech.C145_box: propext, Classical.choice, Quot.sound
Pymech.extrudeF_exact: propext, Classical.choice, Quot.sound
Pymech.C146: propext, Classical.choice, Quot.sound
Pymech.C146_box: propext, Classical.choice, Quot.sound
Pymech.edgeMidF_local: propext, Classical.choice, Quot.sound
Pymech.C147: propext, Classical.choice, Quot.sound
Pymech.C147_box: propext, Classical.choice, Quot.sound
Pymech.keepElementsF_exact: propext, Classical.choice, Quot.sound
Pymech.sub_whole_exact: propext, Classical.choice, Quot.sound
Pymech.C148_square: propext, Classical.choice, Quot.sound
Pymech.C148_o: propext, Classical.choice, Quot.sound
Pymech.C149: propext, Classical.choice, Quot.sound
Pymech.squareCoordF_near: propext, Classical.choice, Quot.sound
Pymech.squareCoordF_lt: propext, Classical.choice, Quot.sound
Pymech.C15_false: propext, Classical.choice, Quot.sound
Pymech.C150_partial: propext, Classical.choice, Quot.sound
Pymech.C150_false: propext, Classical.choice, Quot.sound
Pymech.C151: propext, Classical.choice, Quot.sound
Pymech.C151_inner: propext, Classical.choice, Quot.sound
Pymech.C151_outer: propext, Classical.choice, Quot.sound
Pymech.roughMath_rough: propext, Classical.choice, Quot.sound
Pymech.C152: propext, Classical.choice, Quot.sound
Pymech.C16: propext, Classical.choice, Quot.sound
Pymech.C17_lost: propext, Classical.choice, Quot.sound
Pymech.C17_not_restored: propext, Classical.choice, Quot.sound
Pymech.C17_partial: propext, Classical.choice, Quot.sound
Pymech.C18_false: propext, Classical.choice, Quot.sound
Pymech.C18_partial: propext, Classical.choice, Quot.sound
Pymech.C19: propext, Classical.choice, Quot.sound
Pymech.C20_attribute: propext, Classical.choice, Quot.sound
Pymech.C20_file: propext, Classical.choice, Quot.sound
Pymech.C20_read: propext, Classical.choice, Quot.sound
Pymech.C21_false: propext, Classical.choice, Quot.sound
Pymech.C21_partial: propext, Classical.choice, Quot.sound
Pymech.C22: propext, Classical.choice, Quot.sound
Pymech.C22_exact: propext, Classical.choice, Quot.sound
Pymech.C22_lines: propext, Quot.sound
Pymech.C23_false: propext, Classical.choice, Quot.sound
Pymech.C23_partial: propext, Classical.choice, Quot.sound
Pymech.C24_false: propext, Classical.choice, Quot.sound
Pymech.C24_not_restored: propext, Classical.choice, Quot.sound
Pymech.C25_few: propext, Classical.choice, Quot.sound
Pymech.C25_not_restored: propext, Classical.choice, Quot.sound
Pymech.C25_many: propext, Classical.choice, Quot.sound
Pymech.C25_partial: propext, Classical.choice, Quot.sound
Pymech.C26_false: propext, Classical.choice, Quot.sound
Pymech.C26_empty: propext, Classical.choice, Quot.sound
Pymech.C27: propext, Classical.choice, Quot.sound
Pymech.C27_short: propext, Classical.choice, Quot.sound
Pymech.C28: propext, Classical.choice, Quot.sound
Pymech.C29_false: propext, Quot.sound
Pymech.C29_type: propext, Classical.choice, Quot.sound
Pymech.C30_false: propext, Classical.choice, Quot.sound
Pymech.C30_partial: propext, Classical.choice, Quot.sound
Pymech.C31_false: propext, Classical.choice, Quot.sound
Pymech.lims_extrema: propext, Classical.choice, Quot.sound
Pymech.lims_order: propext, Classical.choice, Quot.sound
Pymech.npZip_broadcast: propext
Pymech.lims_single: propext
Pymech.lims_not_total: propext, Classical.choice, Quot.sound
Pymech.lims_defined_partial: propext, Classical.choice, Quot.sound
Pymech.lims_immutable: propext
Pymech.lims_init: propext, Classical.choice, Quot.sound
Pymech.setattr_iff: propext, Quot.sound
Pymech.face_center_eq_mean: propext, Classical.choice, Quot.sound
Pymech.face_center_2d: propext, Classical.choice, Quot.sound
Pymech.face_center_invalid: propext, Quot.sound
Pymech.smallest_edge_wrong: propext, Classical.choice, Quot.sound
Pymech.smallest_edge_le_partial: propext, Classical.choice, Quot.sound
Pymech.smallest_edge_box2d_partial: propext, Classical.choice, Quot.sound
Pymech.smallest_edge_box3d_partial: propext, Classical.choice, Quot.sound
Pymech.check_connectivity_iff: propext, Classical.choice, Quot.sound
Pymech.check_connectivity_raises_iff: propext, Classical.choice, Quot.sound
Pymech.near_iff_real: propext, Classical.choice, Quot.sound
Pymech.check_bcs_present_iff: propext, Classical.choice, Quot.sound
Pymech.merge_concat: propext, Classical.choice, Quot.sound
Pymech.merge_elmap: propext, Classical.choice, Quot.sound
Pymech.merge_rejects: propext, Quot.sound
Pymech.merge_valid: propext, Classical.choice, Quot.sound
Pymech.merge_check: propext, Classical.choice, Quot.sound
Pymech.merge_count: propext, Classical.choice, Quot.sound
Pymech.merge_ignore_all: propext, Classical.choice, Quot.sound
Pymech.offset_connectivity_spec: propext, Classical.choice, Quot.sound
Pymech.offset_connectivity_link: propext, Classical.choice, Quot.sound
Pymech.offset_connectivity_add: propext, Classical.choice, Quot.sound
Pymech.offset_connectivity_cancel: propext, Classical.choice, Quot.sound
Pymech.update_ncurv_spec: propext, Quot.sound
Pymech.update_ncurv_idem: propext, Quot.sound
Pymech.get_points_spec: propext, Classical.choice, Quot.sound
Pymech.get_points_fails: propext, Classical.choice, Quot.sound
Pymech.get_points_missing: propext, Quot.sound
Pymech.extrude_geometry: propext, Classical.choice, Quot.sound
Pymech.extrude_valid: propext, Classical.choice, Quot.sound
Pymech.extrude_records: propext, Classical.choice, Quot.sound
Pymech.extrude_checks: propext, Classical.choice, Quot.sound
Pymech.extrude_rejects: propext, Classical.choice, Quot.sound
Pymech.extrude_rejects_short: propext, Classical.choice, Quot.sound
Pymech.extrude_keeps_internal: propext, Classical.choice, Quot.sound
Pymech.extrude_no_internal_false: propext, Classical.choice, Quot.sound
Pymech.extrude_no_internal_partial: propext, Classical.choice, Quot.sound
Pymech.new_elmap: propext, Quot.sound
Pymech.gen_box_elmap: propext, Classical.choice, Quot.sound
Pymech.rotate_2d_elmap: propext, Classical.choice, Quot.sound
Pymech.extrude_elmap_partial: propext, Classical.choice, Quot.sound
Pymech.keep_elements_elmap_partial: propext, Classical.choice, Quot.sound
Pymech.elmap_inconsistent: propext, Classical.choice, Quot.sound
Pymech.delete_internal_bcs_spec: propext, Quot.sound
Pymech.delete_internal_bcs_idem: propext, Classical.choice, Quot.sound
Pymech.delete_valid: propext, Quot.sound
Pymech.generate_internal_bcs_spec: propext, Classical.choice, Quot.sound
Pymech.Spec.ConnectedPairs.keeps: propext, Quot.sound
Pymech.generate_internal_bcs_valid: propext, Classical.choice, Quot.sound
Pymech.generate_internal_bcs_valid_single: propext, Classical.choice, Quot.sound
Pymech.generate_internal_bcs_complete: propext, Classical.choice, Quot.sound
Pymech.generate_internal_bcs_raises: propext, Classical.choice, Quot.sound
Pymech.generate_internal_bcs_no_bc: propext, Classical.choice, Quot.sound
Pymech.generate_ok: propext, Classical.choice, Quot.sound
Pymech.keep_elements_spec: propext, Classical.choice, Quot.sound
Pymech.keep_elements_kept: propext, Classical.choice, Quot.sound
Pymech.keep_elements_rejects: propext, Classical.choice, Quot.sound
Pymech.keep_elements_valid: propext, Classical.choice, Quot.sound
Pymech.KeptRec_points: propext, Classical.choice, Quot.sound
Pymech.rotate_2d_spec: propext, Classical.choice, Quot.sound
Pymech.rotate_2d_isometry: propext, Classical.choice, Quot.sound
Pymech.rotate_2d_bcs: propext, Classical.choice, Quot.sound
Pymech.rotate_2d_check: propext, Classical.choice, Quot.sound
Pymech.rotate_2d_add: propext, Classical.choice, Quot.sound
Pymech.rotate_2d_zero: propext, Classical.choice, Quot.sound
Pymech.rotate_2d_centre_wrong: propext, Classical.choice, Quot.sound
Pymech.rotate_2d_centre_ignored: propext, Classical.choice, Quot.sound
Pymech.rotate_2d_centre_partial: propext, Classical.choice, Quot.sound
Pymech.rotate_2d_centre_iff: propext, Classical.choice, Quot.sound
Pymech.gen_box_geometry: propext, Classical.choice, Quot.sound
Pymech.subdiv_bounds: propext, Classical.choice, Quot.sound
Pymech.gen_box_tiles: propext, Classical.choice, Quot.sound
Pymech.gen_box_rejects: propext, Classical.choice, Quot.sound
Pymech.gen_box_fields: propext, Classical.choice, Quot.sound
Pymech.gen_box_short: propext, Classical.choice, Quot.sound
Pymech.gen_box_valid: propext, Classical.choice, Quot.sound
Pymech.gen_box_checks: propext, Classical.choice, Quot.sound
Pymech.gen_box_sides: propext, Classical.choice, Quot.sound
Pymech.gen_box_one_sided: propext, Classical.choice, Quot.sound
Pymech.gen_box_one_sided_invalid: propext, Classical.choice, Quot.sound
Pymech.gen_box_one_sided_partial: propext, Classical.choice, Quot.sound
Pymech.gen_box_check_iff_partial: propext, Classical.choice, Quot.sound
Pymech.C63: propext, Classical.choice, Quot.sound
Pymech.C63_bc_partial: propext, Classical.choice, Quot.sound
Pymech.C63_radius: propext, Classical.choice, Quot.sound
Pymech.C63_inner: propext, Classical.choice, Quot.sound
Pymech.C63_quarters: propext, Classical.choice, Quot.sound
Pymech.C63_thin: propext, Classical.choice, Quot.sound
Pymech.C63_false: propext, Classical.choice, Quot.sound
Pymech.C64_false: propext, Classical.choice, Quot.sound
Pymech.C64_circle: propext, Classical.choice, Quot.sound
Pymech.C64_map_partial: propext, Classical.choice, Quot.sound
Pymech.C64_keep: propext, Classical.choice, Quot.sound
Pymech.C64_extrude: propext, Classical.choice, Quot.sound
Pymech.C65_false: propext, Classical.choice, Quot.sound
Pymech.refine_one: propext, Classical.choice, Quot.sound
Pymech.C65_partial: propext, Classical.choice, Quot.sound
Pymech.C66_zero: propext, Classical.choice, Quot.sound
Pymech.C66_near: propext, Classical.choice, Quot.sound
Pymech.C66_near_exact: propext, Classical.choice, Quot.sound
Pymech.C66_fixed: propext, Classical.choice, Quot.sound
Pymech.C66_one: propext, Classical.choice, Quot.sound
Pymech.C66_iterates: propext, Classical.choice, Quot.sound
Pymech.C67: propext, Classical.choice, Quot.sound
Pymech.C67_valid: propext, Classical.choice, Quot.sound
Pymech.C67_mid: propext, Quot.sound
Pymech.C67_rejects: propext, Quot.sound
Pymech.C68_false: propext, Classical.choice, Quot.sound
Pymech.map2D_input: propext, Classical.choice, Quot.sound
Pymech.C68_partial: propext, Classical.choice, Quot.sound
Pymech.C69_straight: propext, Classical.choice, Quot.sound
Pymech.C69_mid: propext, Quot.sound
Pymech.C69_arc: propext, Classical.choice, Quot.sound
Pymech.C70_false: propext, Classical.choice, Quot.sound
Pymech.C70_arc: propext, Classical.choice, Quot.sound
Pymech.C70_circle: propext, Classical.choice, Quot.sound
Pymech.C70_partial: propext, Quot.sound
Pymech.C71: propext, Classical.choice, Quot.sound
Pymech.C71_flat: propext, Classical.choice, Quot.sound
Pymech.C72_partial: propext, Classical.choice, Quot.sound
Pymech.C72_layers: propext, Quot.sound
Pymech.C72_rejects: propext, Classical.choice, Quot.sound
Pymech.C72_false: propext, Classical.choice, Quot.sound
Pymech.C73: propext, Classical.choice, Quot.sound
Pymech.C73_geometry: propext, Classical.choice, Quot.sound
Pymech.C74_inner: propext, Classical.choice, Quot.sound
Pymech.C74_next: propext, Classical.choice, Quot.sound
Pymech.C74_section: propext, Classical.choice, Quot.sound
Pymech.C74_tiling: propext, Classical.choice, Quot.sound
Pymech.C74_saddle: propext, Classical.choice, Quot.sound
Pymech.C75_fun_false: propext, Classical.choice, Quot.sound
Pymech.C75_funpar_false: propext, Quot.sound
Pymech.C75_partial: propext, Classical.choice, Quot.sound
Pymech.C76: propext, Classical.choice, Quot.sound
Pymech.C76_sort: propext, Classical.choice, Quot.sound
Pymech.C76_returns: propext, Classical.choice, Quot.sound
Pymech.refine_structure: propext, Classical.choice, Quot.sound
Pymech.C77_false: propext, Classical.choice, Quot.sound
Pymech.midElem_sphere: propext, Classical.choice, Quot.sound
Pymech.C78_false: propext, Classical.choice, Quot.sound
Pymech.C78_partial: propext, Classical.choice, Quot.sound
Pymech.C78_accepts: propext, Classical.choice, Quot.sound
Pymech.Re.run_iff: propext, Quot.sound
Pymech.C79: propext, Classical.choice, Quot.sound
Pymech.C79_box: propext, Classical.choice, Quot.sound
Pymech.uniqueIdx_spec: propext, Classical.choice, Quot.sound
Pymech.round8_mono: propext, Classical.choice, Quot.sound
Pymech.C80: propext, Classical.choice, Quot.sound
Pymech.dec02_inj: propext, Quot.sound
Pymech.C81: propext, Classical.choice, Quot.sound
Pymech.vtk_spec: propext, Classical.choice, Quot.sound
Pymech.vtk_no_points: propext, Classical.choice, Quot.sound
Pymech.C82: propext, Classical.choice, Quot.sound
Pymech.C83_false: propext, Classical.choice, Quot.sound
Pymech.C83_zero: propext, Classical.choice, Quot.sound
Pymech.C83_partial: propext, Classical.choice, Quot.sound
Pymech.C84_partial: propext, Classical.choice, Quot.sound
Pymech.C84_false: propext, Classical.choice, Quot.sound
Pymech.C85: propext, Classical.choice, Quot.sound
Pymech.C85_no_internal: propext, Classical.choice, Quot.sound
Pymech.C86_false: propext, Classical.choice, Quot.sound
Pymech.C86_partial: propext, Classical.choice, Quot.sound
Pymech.strides_divide: propext, Quot.sound
Pymech.C88_false: propext, Classical.choice, Quot.sound
Pymech.C88_partial: propext, Classical.choice, Quot.sound
Pymech.C89_false: propext, Classical.choice, Quot.sound
Pymech.C89_partial: propext, Classical.choice, Quot.sound
Pymech.gen_box_generate: propext, Classical.choice, Quot.sound
Pymech.gen_box_delete: propext, Classical.choice, Quot.sound
Pymech.gen_box_stack_false: propext, Classical.choice, Quot.sound
Pymech.gen_box_stack_partial: propext, Classical.choice, Quot.sound
Pymech.C92: propext, Classical.choice, Quot.sound
Pymech.C93_partial: propext, Classical.choice, Quot.sound
Pymech.C93_false: propext, Classical.choice, Quot.sound
Pymech.C93_lost: propext, Classical.choice, Quot.sound
Pymech.dns_fields: propext, Classical.choice, Quot.sound
Pymech.C94: propext, Classical.choice, Quot.sound
Pymech.C95: propext, Classical.choice, Quot.sound
Pymech.C95_empty: propext, Classical.choice, Quot.sound
Pymech.C96_false: propext, Classical.choice, Quot.sound
Pymech.C96_partial: propext, Classical.choice, Quot.sound
Pymech.C97_false: propext, Classical.choice, Quot.sound
Pymech.C97_partial: propext, Classical.choice, Quot.sound
Pymech.C97_point: propext, Classical.choice, Quot.sound
Pymech.C98: propext, Classical.choice, Quot.sound
Pymech.C99_partial: propext, Classical.choice, Quot.sound
Pymech.C99_false: propext, Classical.choice, Quot.sound
