"""Writes MANIFEST.json from the table below."""
import json
import os

P, Q = "proved", "partial"
N = "Pymech."
claims = {
    "C01": (P, "C01_roundtrip C01_time_exact", "writer and reader may run on machines of different byte order"),
    "C02": (P, "C02_rounded C02_stable", ""),
    "C03": (P, "C03_endian C03_unknown", ""),
    "C04": (Q, "C04_unreadable C04_false C04_partial", "false in the code: a double-precision file read into float32 arrays is written with 4-byte data under an 8-byte header; holds if the array type fits the word size"),
    "C05": (P, "C05_layout C05_size", ""),
    "C06": (P, "C06_header C06_header_exact", ""),
    "C07": (P, "C07_variables", ""),
    "C08": (P, "C08_short C08_wordsize C08_no_variables C08_sound C08_derived", ""),
    "C09": (P, "C09_skip_vars", ""),
    "C10": (Q, "C10_false C10_partial", "false in the code: skipping a whole group jumps over the data of all elements, not of those in the file; holds if no group is skipped as a whole"),
    "C11": (P, "C11_blocks C11_zero C11_map C11_raises C11_negative_count", ""),
    "C12": (P, "C12_truncated C12_any", "C12_any: files of any origin, with skipped variables"),
    "C13": (P, "C13_tag C13_tag_error C13_written", ""),
    "C14": (Q, "C14_writenek_false C14_writenek_nonempty C14_writere2", "holds for writere2; false in the code for writenek: the file is opened (and emptied) before the word size is checked"),
    "C15": (Q, "C15_false", "false in the code: a field without variables is written to a file that cannot be read; with a variable the round trip is C01"),
    "C16": (P, "C16", "the number of fields is not restricted"),
    "C17": (Q, "C17_lost C17_not_restored C17_partial", "false in the code: the counts are read in the byte order of the machine; every mesh with curved edges or boundary conditions loses them; holds for coordinates alone"),
    "C18": (Q, "C18_false C18_partial", "false in the code: with nine digits the columns merge; holds below 10^8 elements"),
    "C19": (P, "C19", ""),
    "C20": (P, "C20_attribute C20_file C20_read", "reading: byte order of the machine, or no curves at all"),
    "C21": (Q, "C21_false C21_partial", "false in the code for nbc = 0; holds for at least one field"),
    "C22": (P, "C22 C22_exact C22_lines", "up to the digits printed, and exactly for at most seven digits; between 10^3 and 10^6 elements the indices stored are those of element and face"),
    "C23": (Q, "C23_false C23_partial", "false in the code: writerea turns empty conditions of the mesh into internal ones; holds exactly if there are none"),
    "C24": (Q, "C24_false C24_not_restored", "false in the code: readrea never returns more than two characters"),
    "C25": (Q, "C25_few C25_not_restored C25_many C25_partial", "false in the code: the mesh is restored exactly if the attribute is the number of curved edges"),
    "C26": (Q, "C26_false C26_empty", "false in the code: the file of a mesh without fields cannot be read"),
    "C27": (P, "C27 C27_short", ""),
    "C28": (P, "C28", ""),
    "C29": (Q, "C29_false C29_type", "false in the code: TypeError for every file with one or three dimensions"),
    "C30": (Q, "C30_false C30_partial", "false in the code from four points on: one plane is lost and one slot is not set"),
    "C31": (Q, "C31_false", "false in the code: files with scalars raise ValueError"),
    "C32": (P, "lims_extrema lims_order npZip_broadcast", ""),
    "C33": (Q, "lims_single lims_not_total lims_defined_partial", "false in the code: one element raises TypeError; holds for two or more"),
    "C34": (P, "lims_immutable lims_init setattr_iff", ""),
    "C35": (P, "face_center_eq_mean face_center_2d face_center_invalid", ""),
    "C36": (Q, "smallest_edge_wrong smallest_edge_le_partial smallest_edge_box2d_partial smallest_edge_box3d_partial", "false in the code: diagonals are measured instead of the edges in y; holds for boxes exactly if the side in y is not shorter than all others"),
    "C37": (P, "check_connectivity_iff check_connectivity_raises_iff near_iff_real", "the partner face is only required to be one of 0..5 by the code"),
    "C38": (P, "check_bcs_present_iff", ""),
    "C39": (P, "merge_concat merge_elmap merge_rejects", ""),
    "C40": (P, "merge_valid", ""),
    "C41": (P, "merge_check", ""),
    "C42": (P, "merge_count merge_ignore_all", ""),
    "C43": (P, "offset_connectivity_spec offset_connectivity_link offset_connectivity_add offset_connectivity_cancel", ""),
    "C44": (P, "update_ncurv_spec update_ncurv_idem", ""),
    "C45": (P, "get_points_spec get_points_fails get_points_missing", ""),
    "C46": (P, "extrude_geometry", "for at least two z values"),
    "C47": (P, "extrude_valid extrude_records", ""),
    "C48": (P, "extrude_checks", ""),
    "C49": (P, "extrude_rejects extrude_rejects_short", "extrude_rejects_short: the other exception, also for an empty list of z values"),
    "C50": (Q, "extrude_keeps_internal extrude_no_internal_false extrude_no_internal_partial", "false in the code: only the first layer is cleaned; holds for one layer or a mesh without internal conditions"),
    "C51": (Q, "new_elmap merge_elmap gen_box_elmap rotate_2d_elmap extrude_elmap_partial keep_elements_elmap_partial elmap_inconsistent", "false in the code: extrude and keep_elements leave elmap alone"),
    "C56": (P, "keep_elements_spec keep_elements_kept keep_elements_rejects", ""),
    "C57": (P, "keep_elements_valid KeptRec_points", ""),
    "C52": (P, "delete_internal_bcs_spec delete_internal_bcs_idem delete_valid", ""),
    "C53": (P, "generate_internal_bcs_spec Spec.ConnectedPairs.keeps generate_internal_bcs_valid generate_internal_bcs_valid_single", ""),
    "C54": (P, "generate_internal_bcs_complete", ""),
    "C55": (P, "generate_internal_bcs_raises generate_internal_bcs_no_bc generate_ok", ""),
    "C58": (P, "rotate_2d_spec rotate_2d_isometry rotate_2d_bcs rotate_2d_check rotate_2d_add rotate_2d_zero", ""),
    "C59": (Q, "rotate_2d_centre_wrong rotate_2d_centre_ignored rotate_2d_centre_partial rotate_2d_centre_iff", "false in the code: the centre is ignored; holds exactly for the centre (0, 0) or a trivial angle"),
    "C60": (P, "gen_box_geometry subdiv_bounds gen_box_tiles gen_box_rejects gen_box_fields gen_box_short", ""),
    "C61": (P, "gen_box_valid gen_box_checks gen_box_sides", ""),
    "C62": (Q, "gen_box_one_sided gen_box_one_sided_invalid gen_box_one_sided_partial gen_box_check_iff_partial", "false in the code: one-sided periodicity is accepted and the mesh is invalid; check_connectivity accepts the result exactly if there is none"),
    "C63": (Q, "C63 C63_bc_partial C63_radius C63_inner C63_quarters C63_thin C63_false", "sizes, arcs and geometry for all arguments; false for the conditions: with internal_bcs, one layer and many elements per side, curved faces next to a corner of the square become internal (C63_thin for all such circles, C63_false a witness); kept unless the face touches a face of another block within the tolerance of merge, and always under the hypotheses of C106"),
    "C64": (Q, "C64_false C64_circle C64_map_partial C64_keep C64_extrude", "false in the code for map2D and gen_circle, whose ncurv is stale or 0; holds for keep_elements and extrude"),
    "C65": (Q, "C65_false refine_one C65_partial", "false in the code: the default spacing always raises with one layer; holds if a spacing function is given"),
    "C66": (P, "C66_zero C66_near C66_near_exact C66_fixed C66_one C66_iterates", "exact arithmetic; near 1 the error function uses a truncated sum, exact for up to four elements"),
    "C67": (P, "C67 C67_valid C67_mid C67_rejects", "midpoints as given by edge_mid (C69)"),
    "C68": (Q, "C68_false map2D_input C68_partial", "false in the code: the curvature of arcs in the input is overwritten"),
    "C69": (P, "C69_straight C69_mid C69_arc", "arcs over the reals"),
    "C70": (Q, "C70_false C70_arc C70_circle C70_partial", "false in the code: for arcs edge_mid, and always edge_circle, overwrite the stored curvature"),
    "C71": (P, "C71 C71_flat", "over the reals"),
    "C72": (Q, "C72_partial C72_layers C72_rejects C72_false", "false in the code for nz = 0 (a multiple of 4), which raises IndexError instead of returning no elements; proved for nz > 0 and edges that are not of type 's' (C77)"),
    "C73": (P, "C73 C73_geometry", "with internal_bcs, for elements whose high corners form a side and end conditions other than 'E'; links through the side faces only, as in the statement"),
    "C74": (P, "C74_inner C74_next C74_section C74_tiling C74_saddle", "for elements whose high corners form a side; with two opposite high corners (a saddle) the code accepts the element and the result does not fit (C74_saddle)"),
    "C77": (Q, "C77_false midElem_sphere", "false in the code: IndexError for every such mesh"),
    "C75": (Q, "C75_fun_false C75_funpar_false C75_partial", "false in the code: fun=None raises TypeError at len(fun), funpar=None at funpar[k]; an empty list of functions gives the simple extrusion"),
    "C76": (P, "C76 C76_sort C76_returns refine_structure", "count and structure for every successful call with funpar given (without it there is none, C75); C76_returns: internal_bcs=False always succeeds under RefineArgs"),
    "C86": (Q, "C86_false C86_partial", "false in the code: for k < imesh_high a function vanishing on a grid line leads to ValueError; holds if it vanishes at no corner or k >= imesh_high"),
    "C87": (P, "strides_divide C76_returns", ""),
    "C81": (P, "C81 vtk_spec vtk_no_points", "coordinates, velocity, pressure, temperature and scalars, with and without downsample"),
    "C82": (P, "C82 vtk_spec", "up to the arrays handed to VTK"),
    "C83": (Q, "C83_false C83_zero C83_partial", "false in the code: with var[0] = 2, as in 2D files, all points are at the origin and all cells degenerate; holds if var[0] is 3"),
    "C88": (Q, "C88_false C88_partial", "false in the code: the arrays have one row per corner of each cell, and the rows beyond the grid points are points at the origin; holds exactly for two points per direction"),
    "C78": (Q, "C78_false C78_partial C78_accepts Re.run_iff", "false in the code: the match is not anchored at the end (a.fld.png, six digits, directories) and newlines are excluded; exact characterization and acceptance of the intended names proved"),
    "C79": (P, "C79 C79_box uniqueIdx_spec round8_mono", "for every monotone rounding, in particular the exact one"),
    "C80": (P, "C80 dec02_inj", ""),
    "C89": (Q, "C89_false C89_partial", "false in the code: coordinates closer than the rounding to 8 digits are merged; holds for spacings above 1e-8"),
    "C90": (P, "gen_box_generate gen_box_delete", ""),
    "C91": (Q, "gen_box_stack_false gen_box_stack_partial", "false in the code: the side walls of flat elements are connected, because smallest_edge ignores the height; holds if elements are higher than the tolerance times their width"),
    "C92": (P, "C92", ""),
    "C93": (Q, "C93_partial C93_false C93_lost dns_fields", "false in the code: irfft2 takes the spanwise direction for the one with half of the coefficients; waves along x come out halved and those with negative spanwise wavenumber are lost; dns_fields says what is returned, C93_partial when it is right"),
    "C94": (P, "C94", ""),
    "C95": (P, "C95 C95_empty", ""),
    "C96": (Q, "C96_false C96_partial", "false in the code: with_suffix removes the number of the time step, so that all files of a series are written to the same name; holds for names without extension or with the same extension"),
    "C97": (Q, "C97_false C97_partial C97_point", "false in the code: the radius is taken from the fifth parameter instead of the fourth; the centre is returned when the fifth is zero; holds if the radius is stored there, too. That Nek5000 has the radius in the fourth parameter is knowledge about Nek5000, not part of the repository"),
    "C98": (P, "C98", ""),
    "C99": (Q, "C99_partial C99_false", "false in the code for names filled up with blanks to three characters and zero bytes after that: the blanks stay in the name; holds for names filled up with white space only or zero bytes only"),
    "C100": (P, "C100", ""),
    "C101": (Q, "C101_partial C101_false C101_near C101_direction", "false in the code for more than three elements: the polynomial used is not the derivative; holds for up to three elements and near 1; all steps go in the right direction anyway"),
    "C102": (Q, "C102_partial C102_false C102_secant", "false in the code if the length 1, where the search starts, is the solution: length 0 is used instead and ValueError is raised; holds if the function exists, for exact solutions of the two equations"),
    "C103": (Q, "C103_partial C103_false C103_accepts C103_no_coordinates", "false in the code: the coordinates are sorted, the data are not, and only their number is checked; rotated and mirrored elements are accepted with wrong labels; which elements are accepted and which are labelled correctly is proved exactly"),
    "C104": (P, "C104 C104_between C104_symmetric", ""),
    "C105": (P, "C105 C105_check", ""),
    "C106": (P, "C106 C106_sizes C106_general", "over the real numbers, with a bound of the elongation of the elements; C106_sizes shows that the bound holds for up to 14 s elements per side"),
    "C107": (P, "C107 C107_edges", "for elements whose high corners form a side; in several blocks without arcs (with arcs later blocks are wrong: C84)"),
    "C108": (P, "C108_radius C108_mid C108_ring C108_extrude", "over the real numbers; C108_extrude for the first block of four layers (later ones: C84)"),
    "C109": (Q, "C109_partial C109_no_dummy_partial C109_false", "false in the code if a periodic side and its partner belong to different parts: their faces keep the condition 'con'; everything else is proved, and the whole claim without such sides"),
    "C110": (P, "C110_header C110_refused C110_int C110_float nearest_ofRat nearest_unique decWord_unique splitT_iff", "what int and float do with a word is a definition of the model (Verif/IO/Text.lean), here shown to agree with an independent grammar of numerals"),
    "C111": (P, "C111_double C111_single C111_widened", ""),
    "C112": (Q, "C112_false C112_unreadable C112_partial", "false in the code: the header written for a part announces all elements but only those of the element map follow, so the file is too short; holds if the file contained all elements"),
    "C113": (Q, "C113_partial C113_false C113_stable", "false in the code for meshes without fields of boundary conditions: the second file is eight bytes longer; holds with at least one field, and from the second file on"),
    "C114": (Q, "C114_partial C114_false C114_tiny", "false in the code: parameters of an internal condition are lost if the first is zero, and from a million elements on some subnormal parameters change; holds otherwise, for all coordinates"),
    "C115": (Q, "C115_partial C115_false C115_vertices C115_rows C115_readable", "false in the code: the file is opened before the sizes of the arrays are met; holds if the arrays of all elements hold what is announced (exact condition)"),
    "C116": (P, "C116", ""),
    "C117": (Q, "C117_partial C117_false", "false in the code: the file is opened first; holds if lists and arrays hold what is announced (exact condition)"),
    "C118": (Q, "C118_partial C118_false C118_refused", "false in the code: the file is opened first; holds exactly if the elements in the element map hold what is announced; files left behind because of missing components are refused by readnek"),
    "C119": (Q, "C119_partial C119_false", "false in the code: if a title says that a field has no conditions before another field lists its own then ValueError is raised; holds if such titles come last; conditions have names of at most two letters (see C24), no edge is listed twice"),
    "C120": (Q, "C120_partial C120_size C120_read C120_false C120_written_partial", "false in the code: the number of fields is not in the file, so a file that ends exactly after the curved sides or after a field is read as a mesh with fewer fields; every other truncation is refused"),
    "C121": (Q, "C121_partial C121_written_partial C121_false C121_number", "false in the code: the fields are counted by their titles, so a file that ends before a title is read with fewer fields, and a last number that lost digits or its exponent is read as another number; nothing else is read wrongly from a written file that was cut"),
    "C122": (P, "C122_plane C122_plane_exact C122_dns C122_dns_refused", "C122_plane and C122_dns for arbitrary bytes; C122_plane_exact and C122_dns_refused say which well-formed files are refused (velocity files without scalars, see C31)"),
    "C123": (P, "C123_merge C123_generate C123_delete C123_keep C123_extrude", "equality of the whole results, including exceptions"),
    "C124": (Q, "C124_partial C124_false", "false in the code for edges on spheres: rotate_2d does not move the centre; holds for straight edges, arcs, midpoints, and spheres with their centre on the axis"),
    "C125": (P, "C125 C125_id C125_inverse", ""),
    "C126": (P, "C126 C126_all", ""),
    "C127": (P, "C127", ""),
    "C128": (P, "C128_merge C128_keep C128_extrude", ""),
    "C129": (P, "C129 C129_plain C129_truncated C129_written C129_roundtrip", ""),
    "C130": (Q, "C130_partial C130_lost C130_false C130_invalid", "false in the code: only the first field is looked at, so conditions of other fields on faces without one in the first field are overwritten, and a valid mesh can become invalid; holds if such faces have no condition in the other fields; C130_lost says what is lost"),
    "C131": (P, "C131 C131_none C131_plane", "For every list of bytes. The transform, the coefficients and the coordinates are parameters."),
    "C132": (P, "C132 C132_shared C132_links", "the definition genBox, used with doubles instead of exact numbers"),
    "C133": (Q, "C133_partial C133_false", "false in the code: lx*nx/nx need not be lx (three elements from 0 to 0.1 end after 0.1); holds if the length and nx times the length are doubles. Stated for x, the code for y is the same"),
    "C134": (Q, "C134_partial C134_false", "false in the code: two elements between neighbouring doubles; holds if the elements are wider than twice the rounding error of C132. Stated for x"),
    "C135": (P, "check_connectivityF_iff C135 C135_links C135_box", "x ** 2 and np.sqrt are parameters (Libm); sqrt_basic: correctly rounded ones satisfy the assumption"),
    "C136": (Q, "C136_partial C136_false", "false in the code for finite coordinates whose squares overflow (1e200) or vanish (1e-200), and for NaN; holds for coordinates up to 2^400 and tolerances up to 2^100, with explicit rounding errors. The C library is assumed accurate to two units in the last place; libm_accurate: correct rounding satisfies this"),
    "C137": (P, "C137 C137_mid C137_links", "math.cos and math.sin are parameters that are near the exact values; C137_links holds for all doubles, also NaN"),
    "C138": (P, "C138 C138_straight libm_even", "x ** 2 and x ** 0.5 are parameters (Libm); EvenSq: squares do not depend on the sign, libm_even"),
    "C139": (Q, "C139_partial C139_false", "false in the code for half circles: rounding can make the number under the root negative, which gives NaN; holds with explicit errors if the square of the chord is smaller than that of the diameter by a factor of 1 - 2^-46, the chord is at least 2^-200 and all numbers are at most 2^200"),
    "C140": (P, "C140 C140_order npMin_nan npMax_nan", "np.minimum and np.maximum are parameters with their documented behaviour; npMin_nan, npMax_nan: the ones of the model satisfy it"),
    "C141": (P, "C141 mergeF_exact", "x ** 2 and np.sqrt are parameters (Libm), squares do not depend on the sign (EvenSq, libm_even). mergeF_exact: merge of doubles is the exact merge of their values with the rounded test"),
    "C142": (P, "C142 C142_complete C142_raises generateWith_sim", "C142 needs what C53 needs: faces free in the first field carry no links in others"),
    "C143": (Q, "C143_partial C143_false generateF_links", "false in the code for finite coordinates whose squares overflow (1e200: far faces are linked, inf <= inf) or vanish (1e-200: ValueError for edges that are not zero); holds for coordinates up to 2^400, edges of at least 2^-500 and tolerances up to 2^100, with explicit rounding errors"),
    "C144": (Q, "C144_partial C144_false", "false in the code for a million elements: the derivative is far too large below 1, the steps are tiny and the iteration is cut off after 10000 of them (ratio below 0.51, result above 0.72); holds for two elements of any lengths up to a ratio of 2^2100"),
    "C145": (P, "C145 C145_box extrudeF_exact", "extrudeF_exact: extrude of doubles has the values of the exact extrude of the values; C145_box: what gen_box builds satisfies the assumptions"),
    "C146": (P, "C146 C146_box edgeMidF_local", "the transformation has no side effects and raises no exceptions; C146_box: gen_box, map2D and extrude one after the other"),
    "C147": (P, "C147 C147_box keepElementsF_exact sub_whole_exact", "keepElementsF_exact: the values of the result are the exact result for the values; sub_whole_exact: the only arithmetic operation does not round"),
    "C148": (P, "C148_square C148_o", "the blocks before merging; the defaults of the two functions are not computed in doubles"),
    "C149": (P, "C149 squareCoordF_near squareCoordF_lt", ""),
    "C150": (Q, "C150_partial C150_false", "false by rounding of k/ns: with three elements the inner lines are not opposite; holds up to c/2^50, and exactly for the sides of the square"),
    "C151": (P, "C151 C151_inner C151_outer roughMath_rough", "roughMath_rough: a library that meets the conditions on the functions of math"),
    "C152": (P, "C152", "the radius is the one that edge_mid reads, the fifth parameter; that this is the wrong one is C97"),
    "C84": (Q, "C84_partial C84_false", "false in the code if an edge is an arc: its radius is overwritten and the second block is made with the wrong one; holds without arcs"),
    "C85": (P, "C85 C85_no_internal", "C85_no_internal: without internal_bcs conditions of the plane mesh appear inside columns"),
}

out = {"claims": [
    {"property": k, "status": st, "theorems": [N + t for t in th.split()], "note": note}
    for k, (st, th, note) in sorted(claims.items())
]}
path = os.path.join(os.path.dirname(__file__), "..", "MANIFEST.json")
with open(path, "w") as f:
    json.dump(out, f, indent=1)
    f.write("\n")
