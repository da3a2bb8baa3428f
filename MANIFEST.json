{
 "claims": [
  {
   "property": "C01",
   "status": "proved",
   "theorems": [
    "Pymech.C01_roundtrip",
    "Pymech.C01_time_exact"
   ],
   "note": "writer and reader may run on machines of different byte order"
  },
  {
   "property": "C02",
   "status": "proved",
   "theorems": [
    "Pymech.C02_rounded",
    "Pymech.C02_stable"
   ],
   "note": ""
  },
  {
   "property": "C03",
   "status": "proved",
   "theorems": [
    "Pymech.C03_endian",
    "Pymech.C03_unknown"
   ],
   "note": ""
  },
  {
   "property": "C04",
   "status": "partial",
   "theorems": [
    "Pymech.C04_unreadable",
    "Pymech.C04_false",
    "Pymech.C04_partial"
   ],
   "note": "false in the code: a double-precision file read into float32 arrays is written with 4-byte data under an 8-byte header; holds if the array type fits the word size"
  },
  {
   "property": "C05",
   "status": "proved",
   "theorems": [
    "Pymech.C05_layout",
    "Pymech.C05_size"
   ],
   "note": ""
  },
  {
   "property": "C06",
   "status": "proved",
   "theorems": [
    "Pymech.C06_header",
    "Pymech.C06_header_exact"
   ],
   "note": ""
  },
  {
   "property": "C07",
   "status": "proved",
   "theorems": [
    "Pymech.C07_variables"
   ],
   "note": ""
  },
  {
   "property": "C08",
   "status": "proved",
   "theorems": [
    "Pymech.C08_short",
    "Pymech.C08_wordsize",
    "Pymech.C08_no_variables",
    "Pymech.C08_sound",
    "Pymech.C08_derived"
   ],
   "note": ""
  },
  {
   "property": "C09",
   "status": "proved",
   "theorems": [
    "Pymech.C09_skip_vars"
   ],
   "note": ""
  },
  {
   "property": "C10",
   "status": "partial",
   "theorems": [
    "Pymech.C10_false",
    "Pymech.C10_partial"
   ],
   "note": "false in the code: skipping a whole group jumps over the data of all elements, not of those in the file; holds if no group is skipped as a whole"
  },
  {
   "property": "C100",
   "status": "proved",
   "theorems": [
    "Pymech.C100"
   ],
   "note": ""
  },
  {
   "property": "C101",
   "status": "partial",
   "theorems": [
    "Pymech.C101_partial",
    "Pymech.C101_false",
    "Pymech.C101_near",
    "Pymech.C101_direction"
   ],
   "note": "false in the code for more than three elements: the polynomial used is not the derivative; holds for up to three elements and near 1; all steps go in the right direction anyway"
  },
  {
   "property": "C102",
   "status": "partial",
   "theorems": [
    "Pymech.C102_partial",
    "Pymech.C102_false",
    "Pymech.C102_secant"
   ],
   "note": "false in the code if the length 1, where the search starts, is the solution: length 0 is used instead and ValueError is raised; holds if the function exists, for exact solutions of the two equations"
  },
  {
   "property": "C103",
   "status": "partial",
   "theorems": [
    "Pymech.C103_partial",
    "Pymech.C103_false",
    "Pymech.C103_accepts",
    "Pymech.C103_no_coordinates"
   ],
   "note": "false in the code: the coordinates are sorted, the data are not, and only their number is checked; rotated and mirrored elements are accepted with wrong labels; which elements are accepted and which are labelled correctly is proved exactly"
  },
  {
   "property": "C104",
   "status": "proved",
   "theorems": [
    "Pymech.C104",
    "Pymech.C104_between",
    "Pymech.C104_symmetric"
   ],
   "note": ""
  },
  {
   "property": "C105",
   "status": "proved",
   "theorems": [
    "Pymech.C105",
    "Pymech.C105_check"
   ],
   "note": ""
  },
  {
   "property": "C106",
   "status": "proved",
   "theorems": [
    "Pymech.C106",
    "Pymech.C106_sizes",
    "Pymech.C106_general"
   ],
   "note": "over the real numbers, with a bound of the elongation of the elements; C106_sizes shows that the bound holds for up to 14 s elements per side"
  },
  {
   "property": "C107",
   "status": "proved",
   "theorems": [
    "Pymech.C107",
    "Pymech.C107_edges"
   ],
   "note": "for elements whose high corners form a side; in several blocks without arcs (with arcs later blocks are wrong: C84)"
  },
  {
   "property": "C108",
   "status": "proved",
   "theorems": [
    "Pymech.C108_radius",
    "Pymech.C108_mid",
    "Pymech.C108_ring",
    "Pymech.C108_extrude"
   ],
   "note": "over the real numbers; C108_extrude for the first block of four layers (later ones: C84)"
  },
  {
   "property": "C109",
   "status": "partial",
   "theorems": [
    "Pymech.C109_partial",
    "Pymech.C109_no_dummy_partial",
    "Pymech.C109_false"
   ],
   "note": "false in the code if a periodic side and its partner belong to different parts: their faces keep the condition 'con'; everything else is proved, and the whole claim without such sides"
  },
  {
   "property": "C11",
   "status": "proved",
   "theorems": [
    "Pymech.C11_blocks",
    "Pymech.C11_zero",
    "Pymech.C11_map",
    "Pymech.C11_raises",
    "Pymech.C11_negative_count"
   ],
   "note": ""
  },
  {
   "property": "C110",
   "status": "proved",
   "theorems": [
    "Pymech.C110_header",
    "Pymech.C110_refused",
    "Pymech.C110_int",
    "Pymech.C110_float",
    "Pymech.nearest_ofRat",
    "Pymech.nearest_unique",
    "Pymech.decWord_unique",
    "Pymech.splitT_iff"
   ],
   "note": "what int and float do with a word is a definition of the model (Verif/IO/Text.lean), here shown to agree with an independent grammar of numerals"
  },
  {
   "property": "C111",
   "status": "proved",
   "theorems": [
    "Pymech.C111_double",
    "Pymech.C111_single",
    "Pymech.C111_widened"
   ],
   "note": ""
  },
  {
   "property": "C112",
   "status": "partial",
   "theorems": [
    "Pymech.C112_false",
    "Pymech.C112_unreadable",
    "Pymech.C112_partial"
   ],
   "note": "false in the code: the header written for a part announces all elements but only those of the element map follow, so the file is too short; holds if the file contained all elements"
  },
  {
   "property": "C113",
   "status": "partial",
   "theorems": [
    "Pymech.C113_partial",
    "Pymech.C113_false",
    "Pymech.C113_stable"
   ],
   "note": "false in the code for meshes without fields of boundary conditions: the second file is eight bytes longer; holds with at least one field, and from the second file on"
  },
  {
   "property": "C114",
   "status": "partial",
   "theorems": [
    "Pymech.C114_partial",
    "Pymech.C114_false",
    "Pymech.C114_tiny"
   ],
   "note": "false in the code: parameters of an internal condition are lost if the first is zero, and from a million elements on some subnormal parameters change; holds otherwise, for all coordinates"
  },
  {
   "property": "C115",
   "status": "partial",
   "theorems": [
    "Pymech.C115_partial",
    "Pymech.C115_false",
    "Pymech.C115_vertices",
    "Pymech.C115_rows",
    "Pymech.C115_readable"
   ],
   "note": "false in the code: the file is opened before the sizes of the arrays are met; holds if the arrays of all elements hold what is announced (exact condition)"
  },
  {
   "property": "C116",
   "status": "proved",
   "theorems": [
    "Pymech.C116"
   ],
   "note": ""
  },
  {
   "property": "C117",
   "status": "partial",
   "theorems": [
    "Pymech.C117_partial",
    "Pymech.C117_false"
   ],
   "note": "false in the code: the file is opened first; holds if lists and arrays hold what is announced (exact condition)"
  },
  {
   "property": "C118",
   "status": "partial",
   "theorems": [
    "Pymech.C118_partial",
    "Pymech.C118_false",
    "Pymech.C118_refused"
   ],
   "note": "false in the code: the file is opened first; holds exactly if the elements in the element map hold what is announced; files left behind because of missing components are refused by readnek"
  },
  {
   "property": "C119",
   "status": "partial",
   "theorems": [
    "Pymech.C119_partial",
    "Pymech.C119_false"
   ],
   "note": "false in the code: if a title says that a field has no conditions before another field lists its own then ValueError is raised; holds if such titles come last; conditions have names of at most two letters (see C24), no edge is listed twice"
  },
  {
   "property": "C12",
   "status": "proved",
   "theorems": [
    "Pymech.C12_truncated",
    "Pymech.C12_any"
   ],
   "note": "C12_any: files of any origin, with skipped variables"
  },
  {
   "property": "C120",
   "status": "partial",
   "theorems": [
    "Pymech.C120_partial",
    "Pymech.C120_size",
    "Pymech.C120_read",
    "Pymech.C120_false",
    "Pymech.C120_written_partial"
   ],
   "note": "false in the code: the number of fields is not in the file, so a file that ends exactly after the curved sides or after a field is read as a mesh with fewer fields; every other truncation is refused"
  },
  {
   "property": "C121",
   "status": "partial",
   "theorems": [
    "Pymech.C121_partial",
    "Pymech.C121_written_partial",
    "Pymech.C121_false",
    "Pymech.C121_number"
   ],
   "note": "false in the code: the fields are counted by their titles, so a file that ends before a title is read with fewer fields, and a last number that lost digits or its exponent is read as another number; nothing else is read wrongly from a written file that was cut"
  },
  {
   "property": "C122",
   "status": "proved",
   "theorems": [
    "Pymech.C122_plane",
    "Pymech.C122_plane_exact",
    "Pymech.C122_dns",
    "Pymech.C122_dns_refused"
   ],
   "note": "C122_plane and C122_dns for arbitrary bytes; C122_plane_exact and C122_dns_refused say which well-formed files are refused (velocity files without scalars, see C31)"
  },
  {
   "property": "C123",
   "status": "proved",
   "theorems": [
    "Pymech.C123_merge",
    "Pymech.C123_generate",
    "Pymech.C123_delete",
    "Pymech.C123_keep",
    "Pymech.C123_extrude"
   ],
   "note": "equality of the whole results, including exceptions"
  },
  {
   "property": "C124",
   "status": "partial",
   "theorems": [
    "Pymech.C124_partial",
    "Pymech.C124_false"
   ],
   "note": "false in the code for edges on spheres: rotate_2d does not move the centre; holds for straight edges, arcs, midpoints, and spheres with their centre on the axis"
  },
  {
   "property": "C125",
   "status": "proved",
   "theorems": [
    "Pymech.C125",
    "Pymech.C125_id",
    "Pymech.C125_inverse"
   ],
   "note": ""
  },
  {
   "property": "C126",
   "status": "proved",
   "theorems": [
    "Pymech.C126",
    "Pymech.C126_all"
   ],
   "note": ""
  },
  {
   "property": "C127",
   "status": "proved",
   "theorems": [
    "Pymech.C127"
   ],
   "note": ""
  },
  {
   "property": "C128",
   "status": "proved",
   "theorems": [
    "Pymech.C128_merge",
    "Pymech.C128_keep",
    "Pymech.C128_extrude"
   ],
   "note": ""
  },
  {
   "property": "C129",
   "status": "proved",
   "theorems": [
    "Pymech.C129",
    "Pymech.C129_plain",
    "Pymech.C129_truncated",
    "Pymech.C129_written",
    "Pymech.C129_roundtrip"
   ],
   "note": ""
  },
  {
   "property": "C13",
   "status": "proved",
   "theorems": [
    "Pymech.C13_tag",
    "Pymech.C13_tag_error",
    "Pymech.C13_written"
   ],
   "note": ""
  },
  {
   "property": "C130",
   "status": "partial",
   "theorems": [
    "Pymech.C130_partial",
    "Pymech.C130_lost",
    "Pymech.C130_false",
    "Pymech.C130_invalid"
   ],
   "note": "false in the code: only the first field is looked at, so conditions of other fields on faces without one in the first field are overwritten, and a valid mesh can become invalid; holds if such faces have no condition in the other fields; C130_lost says what is lost"
  },
  {
   "property": "C131",
   "status": "proved",
   "theorems": [
    "Pymech.C131",
    "Pymech.C131_none",
    "Pymech.C131_plane"
   ],
   "note": "For every list of bytes. The transform, the coefficients and the coordinates are parameters."
  },
  {
   "property": "C132",
   "status": "proved",
   "theorems": [
    "Pymech.C132",
    "Pymech.C132_shared",
    "Pymech.C132_links"
   ],
   "note": "the definition genBox, used with doubles instead of exact numbers"
  },
  {
   "property": "C133",
   "status": "partial",
   "theorems": [
    "Pymech.C133_partial",
    "Pymech.C133_false"
   ],
   "note": "false in the code: lx*nx/nx need not be lx (three elements from 0 to 0.1 end after 0.1); holds if the length and nx times the length are doubles. Stated for x, the code for y is the same"
  },
  {
   "property": "C134",
   "status": "partial",
   "theorems": [
    "Pymech.C134_partial",
    "Pymech.C134_false"
   ],
   "note": "false in the code: two elements between neighbouring doubles; holds if the elements are wider than twice the rounding error of C132. Stated for x"
  },
  {
   "property": "C135",
   "status": "proved",
   "theorems": [
    "Pymech.check_connectivityF_iff",
    "Pymech.C135",
    "Pymech.C135_links",
    "Pymech.C135_box"
   ],
   "note": "x ** 2 and np.sqrt are parameters (Libm); sqrt_basic: correctly rounded ones satisfy the assumption"
  },
  {
   "property": "C136",
   "status": "partial",
   "theorems": [
    "Pymech.C136_partial",
    "Pymech.C136_false"
   ],
   "note": "false in the code for finite coordinates whose squares overflow (1e200) or vanish (1e-200), and for NaN; holds for coordinates up to 2^400 and tolerances up to 2^100, with explicit rounding errors. The C library is assumed accurate to two units in the last place; libm_accurate: correct rounding satisfies this"
  },
  {
   "property": "C137",
   "status": "proved",
   "theorems": [
    "Pymech.C137",
    "Pymech.C137_mid",
    "Pymech.C137_links"
   ],
   "note": "math.cos and math.sin are parameters that are near the exact values; C137_links holds for all doubles, also NaN"
  },
  {
   "property": "C138",
   "status": "proved",
   "theorems": [
    "Pymech.C138",
    "Pymech.C138_straight",
    "Pymech.libm_even"
   ],
   "note": "x ** 2 and x ** 0.5 are parameters (Libm); EvenSq: squares do not depend on the sign, libm_even"
  },
  {
   "property": "C139",
   "status": "partial",
   "theorems": [
    "Pymech.C139_partial",
    "Pymech.C139_false"
   ],
   "note": "false in the code for half circles: rounding can make the number under the root negative, which gives NaN; holds with explicit errors if the square of the chord is smaller than that of the diameter by a factor of 1 - 2^-46, the chord is at least 2^-200 and all numbers are at most 2^200"
  },
  {
   "property": "C14",
   "status": "partial",
   "theorems": [
    "Pymech.C14_writenek_false",
    "Pymech.C14_writenek_nonempty",
    "Pymech.C14_writere2"
   ],
   "note": "holds for writere2; false in the code for writenek: the file is opened (and emptied) before the word size is checked"
  },
  {
   "property": "C140",
   "status": "proved",
   "theorems": [
    "Pymech.C140",
    "Pymech.C140_order",
    "Pymech.npMin_nan",
    "Pymech.npMax_nan"
   ],
   "note": "np.minimum and np.maximum are parameters with their documented behaviour; npMin_nan, npMax_nan: the ones of the model satisfy it"
  },
  {
   "property": "C141",
   "status": "proved",
   "theorems": [
    "Pymech.C141",
    "Pymech.mergeF_exact"
   ],
   "note": "x ** 2 and np.sqrt are parameters (Libm), squares do not depend on the sign (EvenSq, libm_even). mergeF_exact: merge of doubles is the exact merge of their values with the rounded test"
  },
  {
   "property": "C142",
   "status": "proved",
   "theorems": [
    "Pymech.C142",
    "Pymech.C142_complete",
    "Pymech.C142_raises",
    "Pymech.generateWith_sim"
   ],
   "note": "C142 needs what C53 needs: faces free in the first field carry no links in others"
  },
  {
   "property": "C143",
   "status": "partial",
   "theorems": [
    "Pymech.C143_partial",
    "Pymech.C143_false",
    "Pymech.generateF_links"
   ],
   "note": "false in the code for finite coordinates whose squares overflow (1e200: far faces are linked, inf <= inf) or vanish (1e-200: ValueError for edges that are not zero); holds for coordinates up to 2^400, edges of at least 2^-500 and tolerances up to 2^100, with explicit rounding errors"
  },
  {
   "property": "C144",
   "status": "partial",
   "theorems": [
    "Pymech.C144_partial",
    "Pymech.C144_false"
   ],
   "note": "false in the code for a million elements: the derivative is far too large below 1, the steps are tiny and the iteration is cut off after 10000 of them (ratio below 0.51, result above 0.72); holds for two elements of any lengths up to a ratio of 2^2100"
  },
  {
   "property": "C145",
   "status": "proved",
   "theorems": [
    "Pymech.C145",
    "Pymech.C145_box",
    "Pymech.extrudeF_exact"
   ],
   "note": "extrudeF_exact: extrude of doubles has the values of the exact extrude of the values; C145_box: what gen_box builds satisfies the assumptions"
  },
  {
   "property": "C146",
   "status": "proved",
   "theorems": [
    "Pymech.C146",
    "Pymech.C146_box",
    "Pymech.edgeMidF_local"
   ],
   "note": "the transformation has no side effects and raises no exceptions; C146_box: gen_box, map2D and extrude one after the other"
  },
  {
   "property": "C147",
   "status": "proved",
   "theorems": [
    "Pymech.C147",
    "Pymech.C147_box",
    "Pymech.keepElementsF_exact",
    "Pymech.sub_whole_exact"
   ],
   "note": "keepElementsF_exact: the values of the result are the exact result for the values; sub_whole_exact: the only arithmetic operation does not round"
  },
  {
   "property": "C148",
   "status": "proved",
   "theorems": [
    "Pymech.C148_square",
    "Pymech.C148_o"
   ],
   "note": "the blocks before merging; the defaults of the two functions are not computed in doubles"
  },
  {
   "property": "C149",
   "status": "proved",
   "theorems": [
    "Pymech.C149",
    "Pymech.squareCoordF_near",
    "Pymech.squareCoordF_lt"
   ],
   "note": ""
  },
  {
   "property": "C15",
   "status": "partial",
   "theorems": [
    "Pymech.C15_false"
   ],
   "note": "false in the code: a field without variables is written to a file that cannot be read; with a variable the round trip is C01"
  },
  {
   "property": "C150",
   "status": "partial",
   "theorems": [
    "Pymech.C150_partial",
    "Pymech.C150_false"
   ],
   "note": "false by rounding of k/ns: with three elements the inner lines are not opposite; holds up to c/2^50, and exactly for the sides of the square"
  },
  {
   "property": "C151",
   "status": "proved",
   "theorems": [
    "Pymech.C151",
    "Pymech.C151_inner",
    "Pymech.C151_outer",
    "Pymech.roughMath_rough"
   ],
   "note": "roughMath_rough: a library that meets the conditions on the functions of math"
  },
  {
   "property": "C152",
   "status": "proved",
   "theorems": [
    "Pymech.C152"
   ],
   "note": "the radius is the one that edge_mid reads, the fifth parameter; that this is the wrong one is C97"
  },
  {
   "property": "C16",
   "status": "proved",
   "theorems": [
    "Pymech.C16"
   ],
   "note": "the number of fields is not restricted"
  },
  {
   "property": "C17",
   "status": "partial",
   "theorems": [
    "Pymech.C17_lost",
    "Pymech.C17_not_restored",
    "Pymech.C17_partial"
   ],
   "note": "false in the code: the counts are read in the byte order of the machine; every mesh with curved edges or boundary conditions loses them; holds for coordinates alone"
  },
  {
   "property": "C18",
   "status": "partial",
   "theorems": [
    "Pymech.C18_false",
    "Pymech.C18_partial"
   ],
   "note": "false in the code: with nine digits the columns merge; holds below 10^8 elements"
  },
  {
   "property": "C19",
   "status": "proved",
   "theorems": [
    "Pymech.C19"
   ],
   "note": ""
  },
  {
   "property": "C20",
   "status": "proved",
   "theorems": [
    "Pymech.C20_attribute",
    "Pymech.C20_file",
    "Pymech.C20_read"
   ],
   "note": "reading: byte order of the machine, or no curves at all"
  },
  {
   "property": "C21",
   "status": "partial",
   "theorems": [
    "Pymech.C21_false",
    "Pymech.C21_partial"
   ],
   "note": "false in the code for nbc = 0; holds for at least one field"
  },
  {
   "property": "C22",
   "status": "proved",
   "theorems": [
    "Pymech.C22",
    "Pymech.C22_exact",
    "Pymech.C22_lines"
   ],
   "note": "up to the digits printed, and exactly for at most seven digits; between 10^3 and 10^6 elements the indices stored are those of element and face"
  },
  {
   "property": "C23",
   "status": "partial",
   "theorems": [
    "Pymech.C23_false",
    "Pymech.C23_partial"
   ],
   "note": "false in the code: writerea turns empty conditions of the mesh into internal ones; holds exactly if there are none"
  },
  {
   "property": "C24",
   "status": "partial",
   "theorems": [
    "Pymech.C24_false",
    "Pymech.C24_not_restored"
   ],
   "note": "false in the code: readrea never returns more than two characters"
  },
  {
   "property": "C25",
   "status": "partial",
   "theorems": [
    "Pymech.C25_few",
    "Pymech.C25_not_restored",
    "Pymech.C25_many",
    "Pymech.C25_partial"
   ],
   "note": "false in the code: the mesh is restored exactly if the attribute is the number of curved edges"
  },
  {
   "property": "C26",
   "status": "partial",
   "theorems": [
    "Pymech.C26_false",
    "Pymech.C26_empty"
   ],
   "note": "false in the code: the file of a mesh without fields cannot be read"
  },
  {
   "property": "C27",
   "status": "proved",
   "theorems": [
    "Pymech.C27",
    "Pymech.C27_short"
   ],
   "note": ""
  },
  {
   "property": "C28",
   "status": "proved",
   "theorems": [
    "Pymech.C28"
   ],
   "note": ""
  },
  {
   "property": "C29",
   "status": "partial",
   "theorems": [
    "Pymech.C29_false",
    "Pymech.C29_type"
   ],
   "note": "false in the code: TypeError for every file with one or three dimensions"
  },
  {
   "property": "C30",
   "status": "partial",
   "theorems": [
    "Pymech.C30_false",
    "Pymech.C30_partial"
   ],
   "note": "false in the code from four points on: one plane is lost and one slot is not set"
  },
  {
   "property": "C31",
   "status": "partial",
   "theorems": [
    "Pymech.C31_false"
   ],
   "note": "false in the code: files with scalars raise ValueError"
  },
  {
   "property": "C32",
   "status": "proved",
   "theorems": [
    "Pymech.lims_extrema",
    "Pymech.lims_order",
    "Pymech.npZip_broadcast"
   ],
   "note": ""
  },
  {
   "property": "C33",
   "status": "partial",
   "theorems": [
    "Pymech.lims_single",
    "Pymech.lims_not_total",
    "Pymech.lims_defined_partial"
   ],
   "note": "false in the code: one element raises TypeError; holds for two or more"
  },
  {
   "property": "C34",
   "status": "proved",
   "theorems": [
    "Pymech.lims_immutable",
    "Pymech.lims_init",
    "Pymech.setattr_iff"
   ],
   "note": ""
  },
  {
   "property": "C35",
   "status": "proved",
   "theorems": [
    "Pymech.face_center_eq_mean",
    "Pymech.face_center_2d",
    "Pymech.face_center_invalid"
   ],
   "note": ""
  },
  {
   "property": "C36",
   "status": "partial",
   "theorems": [
    "Pymech.smallest_edge_wrong",
    "Pymech.smallest_edge_le_partial",
    "Pymech.smallest_edge_box2d_partial",
    "Pymech.smallest_edge_box3d_partial"
   ],
   "note": "false in the code: diagonals are measured instead of the edges in y; holds for boxes exactly if the side in y is not shorter than all others"
  },
  {
   "property": "C37",
   "status": "proved",
   "theorems": [
    "Pymech.check_connectivity_iff",
    "Pymech.check_connectivity_raises_iff",
    "Pymech.near_iff_real"
   ],
   "note": "the partner face is only required to be one of 0..5 by the code"
  },
  {
   "property": "C38",
   "status": "proved",
   "theorems": [
    "Pymech.check_bcs_present_iff"
   ],
   "note": ""
  },
  {
   "property": "C39",
   "status": "proved",
   "theorems": [
    "Pymech.merge_concat",
    "Pymech.merge_elmap",
    "Pymech.merge_rejects"
   ],
   "note": ""
  },
  {
   "property": "C40",
   "status": "proved",
   "theorems": [
    "Pymech.merge_valid"
   ],
   "note": ""
  },
  {
   "property": "C41",
   "status": "proved",
   "theorems": [
    "Pymech.merge_check"
   ],
   "note": ""
  },
  {
   "property": "C42",
   "status": "proved",
   "theorems": [
    "Pymech.merge_count",
    "Pymech.merge_ignore_all"
   ],
   "note": ""
  },
  {
   "property": "C43",
   "status": "proved",
   "theorems": [
    "Pymech.offset_connectivity_spec",
    "Pymech.offset_connectivity_link",
    "Pymech.offset_connectivity_add",
    "Pymech.offset_connectivity_cancel"
   ],
   "note": ""
  },
  {
   "property": "C44",
   "status": "proved",
   "theorems": [
    "Pymech.update_ncurv_spec",
    "Pymech.update_ncurv_idem"
   ],
   "note": ""
  },
  {
   "property": "C45",
   "status": "proved",
   "theorems": [
    "Pymech.get_points_spec",
    "Pymech.get_points_fails",
    "Pymech.get_points_missing"
   ],
   "note": ""
  },
  {
   "property": "C46",
   "status": "proved",
   "theorems": [
    "Pymech.extrude_geometry"
   ],
   "note": "for at least two z values"
  },
  {
   "property": "C47",
   "status": "proved",
   "theorems": [
    "Pymech.extrude_valid",
    "Pymech.extrude_records"
   ],
   "note": ""
  },
  {
   "property": "C48",
   "status": "proved",
   "theorems": [
    "Pymech.extrude_checks"
   ],
   "note": ""
  },
  {
   "property": "C49",
   "status": "proved",
   "theorems": [
    "Pymech.extrude_rejects",
    "Pymech.extrude_rejects_short"
   ],
   "note": "extrude_rejects_short: the other exception, also for an empty list of z values"
  },
  {
   "property": "C50",
   "status": "partial",
   "theorems": [
    "Pymech.extrude_keeps_internal",
    "Pymech.extrude_no_internal_false",
    "Pymech.extrude_no_internal_partial"
   ],
   "note": "false in the code: only the first layer is cleaned; holds for one layer or a mesh without internal conditions"
  },
  {
   "property": "C51",
   "status": "partial",
   "theorems": [
    "Pymech.new_elmap",
    "Pymech.merge_elmap",
    "Pymech.gen_box_elmap",
    "Pymech.rotate_2d_elmap",
    "Pymech.extrude_elmap_partial",
    "Pymech.keep_elements_elmap_partial",
    "Pymech.elmap_inconsistent"
   ],
   "note": "false in the code: extrude and keep_elements leave elmap alone"
  },
  {
   "property": "C52",
   "status": "proved",
   "theorems": [
    "Pymech.delete_internal_bcs_spec",
    "Pymech.delete_internal_bcs_idem",
    "Pymech.delete_valid"
   ],
   "note": ""
  },
  {
   "property": "C53",
   "status": "proved",
   "theorems": [
    "Pymech.generate_internal_bcs_spec",
    "Pymech.Spec.ConnectedPairs.keeps",
    "Pymech.generate_internal_bcs_valid",
    "Pymech.generate_internal_bcs_valid_single"
   ],
   "note": ""
  },
  {
   "property": "C54",
   "status": "proved",
   "theorems": [
    "Pymech.generate_internal_bcs_complete"
   ],
   "note": ""
  },
  {
   "property": "C55",
   "status": "proved",
   "theorems": [
    "Pymech.generate_internal_bcs_raises",
    "Pymech.generate_internal_bcs_no_bc",
    "Pymech.generate_ok"
   ],
   "note": ""
  },
  {
   "property": "C56",
   "status": "proved",
   "theorems": [
    "Pymech.keep_elements_spec",
    "Pymech.keep_elements_kept",
    "Pymech.keep_elements_rejects"
   ],
   "note": ""
  },
  {
   "property": "C57",
   "status": "proved",
   "theorems": [
    "Pymech.keep_elements_valid",
    "Pymech.KeptRec_points"
   ],
   "note": ""
  },
  {
   "property": "C58",
   "status": "proved",
   "theorems": [
    "Pymech.rotate_2d_spec",
    "Pymech.rotate_2d_isometry",
    "Pymech.rotate_2d_bcs",
    "Pymech.rotate_2d_check",
    "Pymech.rotate_2d_add",
    "Pymech.rotate_2d_zero"
   ],
   "note": ""
  },
  {
   "property": "C59",
   "status": "partial",
   "theorems": [
    "Pymech.rotate_2d_centre_wrong",
    "Pymech.rotate_2d_centre_ignored",
    "Pymech.rotate_2d_centre_partial",
    "Pymech.rotate_2d_centre_iff"
   ],
   "note": "false in the code: the centre is ignored; holds exactly for the centre (0, 0) or a trivial angle"
  },
  {
   "property": "C60",
   "status": "proved",
   "theorems": [
    "Pymech.gen_box_geometry",
    "Pymech.subdiv_bounds",
    "Pymech.gen_box_tiles",
    "Pymech.gen_box_rejects",
    "Pymech.gen_box_fields",
    "Pymech.gen_box_short"
   ],
   "note": ""
  },
  {
   "property": "C61",
   "status": "proved",
   "theorems": [
    "Pymech.gen_box_valid",
    "Pymech.gen_box_checks",
    "Pymech.gen_box_sides"
   ],
   "note": ""
  },
  {
   "property": "C62",
   "status": "partial",
   "theorems": [
    "Pymech.gen_box_one_sided",
    "Pymech.gen_box_one_sided_invalid",
    "Pymech.gen_box_one_sided_partial",
    "Pymech.gen_box_check_iff_partial"
   ],
   "note": "false in the code: one-sided periodicity is accepted and the mesh is invalid; check_connectivity accepts the result exactly if there is none"
  },
  {
   "property": "C63",
   "status": "partial",
   "theorems": [
    "Pymech.C63",
    "Pymech.C63_bc_partial",
    "Pymech.C63_radius",
    "Pymech.C63_inner",
    "Pymech.C63_quarters",
    "Pymech.C63_thin",
    "Pymech.C63_false"
   ],
   "note": "sizes, arcs and geometry for all arguments; false for the conditions: with internal_bcs, one layer and many elements per side, curved faces next to a corner of the square become internal (C63_thin for all such circles, C63_false a witness); kept unless the face touches a face of another block within the tolerance of merge, and always under the hypotheses of C106"
  },
  {
   "property": "C64",
   "status": "partial",
   "theorems": [
    "Pymech.C64_false",
    "Pymech.C64_circle",
    "Pymech.C64_map_partial",
    "Pymech.C64_keep",
    "Pymech.C64_extrude"
   ],
   "note": "false in the code for map2D and gen_circle, whose ncurv is stale or 0; holds for keep_elements and extrude"
  },
  {
   "property": "C65",
   "status": "partial",
   "theorems": [
    "Pymech.C65_false",
    "Pymech.refine_one",
    "Pymech.C65_partial"
   ],
   "note": "false in the code: the default spacing always raises with one layer; holds if a spacing function is given"
  },
  {
   "property": "C66",
   "status": "proved",
   "theorems": [
    "Pymech.C66_zero",
    "Pymech.C66_near",
    "Pymech.C66_near_exact",
    "Pymech.C66_fixed",
    "Pymech.C66_one",
    "Pymech.C66_iterates"
   ],
   "note": "exact arithmetic; near 1 the error function uses a truncated sum, exact for up to four elements"
  },
  {
   "property": "C67",
   "status": "proved",
   "theorems": [
    "Pymech.C67",
    "Pymech.C67_valid",
    "Pymech.C67_mid",
    "Pymech.C67_rejects"
   ],
   "note": "midpoints as given by edge_mid (C69)"
  },
  {
   "property": "C68",
   "status": "partial",
   "theorems": [
    "Pymech.C68_false",
    "Pymech.map2D_input",
    "Pymech.C68_partial"
   ],
   "note": "false in the code: the curvature of arcs in the input is overwritten"
  },
  {
   "property": "C69",
   "status": "proved",
   "theorems": [
    "Pymech.C69_straight",
    "Pymech.C69_mid",
    "Pymech.C69_arc"
   ],
   "note": "arcs over the reals"
  },
  {
   "property": "C70",
   "status": "partial",
   "theorems": [
    "Pymech.C70_false",
    "Pymech.C70_arc",
    "Pymech.C70_circle",
    "Pymech.C70_partial"
   ],
   "note": "false in the code: for arcs edge_mid, and always edge_circle, overwrite the stored curvature"
  },
  {
   "property": "C71",
   "status": "proved",
   "theorems": [
    "Pymech.C71",
    "Pymech.C71_flat"
   ],
   "note": "over the reals"
  },
  {
   "property": "C72",
   "status": "partial",
   "theorems": [
    "Pymech.C72_partial",
    "Pymech.C72_layers",
    "Pymech.C72_rejects",
    "Pymech.C72_false"
   ],
   "note": "false in the code for nz = 0 (a multiple of 4), which raises IndexError instead of returning no elements; proved for nz > 0 and edges that are not of type 's' (C77)"
  },
  {
   "property": "C73",
   "status": "proved",
   "theorems": [
    "Pymech.C73",
    "Pymech.C73_geometry"
   ],
   "note": "with internal_bcs, for elements whose high corners form a side and end conditions other than 'E'; links through the side faces only, as in the statement"
  },
  {
   "property": "C74",
   "status": "proved",
   "theorems": [
    "Pymech.C74_inner",
    "Pymech.C74_next",
    "Pymech.C74_section",
    "Pymech.C74_tiling",
    "Pymech.C74_saddle"
   ],
   "note": "for elements whose high corners form a side; with two opposite high corners (a saddle) the code accepts the element and the result does not fit (C74_saddle)"
  },
  {
   "property": "C75",
   "status": "partial",
   "theorems": [
    "Pymech.C75_fun_false",
    "Pymech.C75_funpar_false",
    "Pymech.C75_partial"
   ],
   "note": "false in the code: fun=None raises TypeError at len(fun), funpar=None at funpar[k]; an empty list of functions gives the simple extrusion"
  },
  {
   "property": "C76",
   "status": "proved",
   "theorems": [
    "Pymech.C76",
    "Pymech.C76_sort",
    "Pymech.C76_returns",
    "Pymech.refine_structure"
   ],
   "note": "count and structure for every successful call with funpar given (without it there is none, C75); C76_returns: internal_bcs=False always succeeds under RefineArgs"
  },
  {
   "property": "C77",
   "status": "partial",
   "theorems": [
    "Pymech.C77_false",
    "Pymech.midElem_sphere"
   ],
   "note": "false in the code: IndexError for every such mesh"
  },
  {
   "property": "C78",
   "status": "partial",
   "theorems": [
    "Pymech.C78_false",
    "Pymech.C78_partial",
    "Pymech.C78_accepts",
    "Pymech.Re.run_iff"
   ],
   "note": "false in the code: the match is not anchored at the end (a.fld.png, six digits, directories) and newlines are excluded; exact characterization and acceptance of the intended names proved"
  },
  {
   "property": "C79",
   "status": "proved",
   "theorems": [
    "Pymech.C79",
    "Pymech.C79_box",
    "Pymech.uniqueIdx_spec",
    "Pymech.round8_mono"
   ],
   "note": "for every monotone rounding, in particular the exact one"
  },
  {
   "property": "C80",
   "status": "proved",
   "theorems": [
    "Pymech.C80",
    "Pymech.dec02_inj"
   ],
   "note": ""
  },
  {
   "property": "C81",
   "status": "proved",
   "theorems": [
    "Pymech.C81",
    "Pymech.vtk_spec",
    "Pymech.vtk_no_points"
   ],
   "note": "coordinates, velocity, pressure, temperature and scalars, with and without downsample"
  },
  {
   "property": "C82",
   "status": "proved",
   "theorems": [
    "Pymech.C82",
    "Pymech.vtk_spec"
   ],
   "note": "up to the arrays handed to VTK"
  },
  {
   "property": "C83",
   "status": "partial",
   "theorems": [
    "Pymech.C83_false",
    "Pymech.C83_zero",
    "Pymech.C83_partial"
   ],
   "note": "false in the code: with var[0] = 2, as in 2D files, all points are at the origin and all cells degenerate; holds if var[0] is 3"
  },
  {
   "property": "C84",
   "status": "partial",
   "theorems": [
    "Pymech.C84_partial",
    "Pymech.C84_false"
   ],
   "note": "false in the code if an edge is an arc: its radius is overwritten and the second block is made with the wrong one; holds without arcs"
  },
  {
   "property": "C85",
   "status": "proved",
   "theorems": [
    "Pymech.C85",
    "Pymech.C85_no_internal"
   ],
   "note": "C85_no_internal: without internal_bcs conditions of the plane mesh appear inside columns"
  },
  {
   "property": "C86",
   "status": "partial",
   "theorems": [
    "Pymech.C86_false",
    "Pymech.C86_partial"
   ],
   "note": "false in the code: for k < imesh_high a function vanishing on a grid line leads to ValueError; holds if it vanishes at no corner or k >= imesh_high"
  },
  {
   "property": "C87",
   "status": "proved",
   "theorems": [
    "Pymech.strides_divide",
    "Pymech.C76_returns"
   ],
   "note": ""
  },
  {
   "property": "C88",
   "status": "partial",
   "theorems": [
    "Pymech.C88_false",
    "Pymech.C88_partial"
   ],
   "note": "false in the code: the arrays have one row per corner of each cell, and the rows beyond the grid points are points at the origin; holds exactly for two points per direction"
  },
  {
   "property": "C89",
   "status": "partial",
   "theorems": [
    "Pymech.C89_false",
    "Pymech.C89_partial"
   ],
   "note": "false in the code: coordinates closer than the rounding to 8 digits are merged; holds for spacings above 1e-8"
  },
  {
   "property": "C90",
   "status": "proved",
   "theorems": [
    "Pymech.gen_box_generate",
    "Pymech.gen_box_delete"
   ],
   "note": ""
  },
  {
   "property": "C91",
   "status": "partial",
   "theorems": [
    "Pymech.gen_box_stack_false",
    "Pymech.gen_box_stack_partial"
   ],
   "note": "false in the code: the side walls of flat elements are connected, because smallest_edge ignores the height; holds if elements are higher than the tolerance times their width"
  },
  {
   "property": "C92",
   "status": "proved",
   "theorems": [
    "Pymech.C92"
   ],
   "note": ""
  },
  {
   "property": "C93",
   "status": "partial",
   "theorems": [
    "Pymech.C93_partial",
    "Pymech.C93_false",
    "Pymech.C93_lost",
    "Pymech.dns_fields"
   ],
   "note": "false in the code: irfft2 takes the spanwise direction for the one with half of the coefficients; waves along x come out halved and those with negative spanwise wavenumber are lost; dns_fields says what is returned, C93_partial when it is right"
  },
  {
   "property": "C94",
   "status": "proved",
   "theorems": [
    "Pymech.C94"
   ],
   "note": ""
  },
  {
   "property": "C95",
   "status": "proved",
   "theorems": [
    "Pymech.C95",
    "Pymech.C95_empty"
   ],
   "note": ""
  },
  {
   "property": "C96",
   "status": "partial",
   "theorems": [
    "Pymech.C96_false",
    "Pymech.C96_partial"
   ],
   "note": "false in the code: with_suffix removes the number of the time step, so that all files of a series are written to the same name; holds for names without extension or with the same extension"
  },
  {
   "property": "C97",
   "status": "partial",
   "theorems": [
    "Pymech.C97_false",
    "Pymech.C97_partial",
    "Pymech.C97_point"
   ],
   "note": "false in the code: the radius is taken from the fifth parameter instead of the fourth; the centre is returned when the fifth is zero; holds if the radius is stored there, too. That Nek5000 has the radius in the fourth parameter is knowledge about Nek5000, not part of the repository"
  },
  {
   "property": "C98",
   "status": "proved",
   "theorems": [
    "Pymech.C98"
   ],
   "note": ""
  },
  {
   "property": "C99",
   "status": "partial",
   "theorems": [
    "Pymech.C99_partial",
    "Pymech.C99_false"
   ],
   "note": "false in the code for names filled up with blanks to three characters and zero bytes after that: the blanks stay in the name; holds for names filled up with white space only or zero bytes only"
  }
 ]
}
