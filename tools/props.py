#!/usr/bin/env python3
"""Source of /verif/properties.jsonl: run it to regenerate the file."""
import json, pathlib
P = []
def p(id, title, statement, quantifier, why, *anchors):
    P.append(dict(id=id, title=title, statement=statement, quantifier=quantifier,
                  why_tests_cant=why, anchors=list(anchors)))

F = "src/pymech/neksuite/field.py"; M = "src/pymech/neksuite/mesh.py"; MA = "src/pymech/neksuite/map.py"
C = "src/pymech/core.py"; T = "src/pymech/meshtools.py"; D = "src/pymech/dataset.py"
S = "src/pymech/simsonsuite.py"; V = "src/pymech/vtksuite.py"

# ---------------------------------------------------------------- field files
p("C01", "writenek then readnek restores a double-precision field",
  "For a field whose word size is 8 and whose arrays are double precision, writing it with writenek and reading the file with readnek gives back ndim, nel, lr1, var, istep, wdsz, endian, elmap and every value of every position/velocity/pressure/temperature/scalar array, bit for bit, and the time as the 14 digits printed in the header determine it (bit for bit if the time has at most 14 digits), provided elmap is a permutation of 1..nel and the header fits its 132 bytes.",
  "all element counts, orders, dimension 2 and 3, variable selections, scalar counts, element maps, both byte orders, all array contents",
  "The existing tests round-trip three sample files; they cannot cover every permutation in elmap, every variable combination and every bit pattern.",
  F+":writenek", F+":readnek", F+":Header")
p("C02", "Single-precision round trip loses exactly one rounding and is then stable",
  "For a field whose word size is 4, writenek followed by readnek returns, for each value, the single-precision rounding of that value (widened to the requested dtype); doing a second write/read changes nothing further.",
  "all fields with wdsz = 4, all values, any number of further write/read cycles",
  "Stability under arbitrarily many cycles and for every bit pattern is a universal claim.",
  F+":writenek", F+":readnek")
p("C03", "Byte order of the file never changes what is read",
  "Writing the same field with endian='little' and endian='big' gives files from which readnek restores the same data, each reporting its own byte order; an unrecognised endian string behaves as the native byte order.",
  "all fields, both target byte orders, both native byte orders",
  "A test runs on one machine byte order only.",
  F+":writenek.correct_endianness", F+":readnek")
p("C04", "A field read with any dtype can be written and read back",
  "A field obtained from readnek(fname, dtype) can be passed to writenek and the resulting file read again by readnek, for every dtype the reader accepts and every word size of the original file.",
  "all combinations of dtype (float32/float64) and file word size (4/8), all contents",
  "Requires reasoning on the interaction between the array dtype and the header word size for every field; tests only use matching combinations.",
  F+":readnek", F+":writenek.write_ndarray_to_file")
p("C05", "Exact size and layout of the file written by writenek",
  "The file consists of the 132-byte header, the 4-byte tag, 4 bytes per elmap entry, the data of geometry, velocity, pressure and temperature with elements in the outer loop (in elmap order) and of the scalars with elements in the inner loop, followed for 3D data only by one single-precision min/max pair per element and component; its size is determined by these counts.",
  "all fields accepted by the writer", "Byte-exact layout for every size and variable selection.",
  F+":writenek")
p("C06", "Header text survives formatting and parsing",
  "For every header whose text fits in 132 bytes, the byte string produced by Header.as_bytestring is 132 bytes long and read_header recovers word size, orders, element counts, time (to the 14 printed digits), step, file id, number of files and the variable string.",
  "all integer values (any sign and number of digits), all 14-digit times, all non-empty variable strings without whitespace",
  "Field widths are minimum widths; the claim must hold when a number overflows its column.",
  F+":Header.as_bytestring", F+":read_header")
p("C07", "Variable string and variable counts are inverse to each other",
  "For dimension d in {2,3} and counts (0 or d, 0 or d, 0 or 1, 0 or 1, n) not all zero, Header derives the same counts back from the variable string it generated from them, for every number n of scalars.",
  "all n (also above 99), all presence combinations, both dimensions",
  "The number of scalars is unbounded and its text is only padded to two digits.",
  F+":Header._variables_to_nb_vars", F+":Header._nb_vars_to_variables")
p("C08", "Malformed headers are rejected, never misread",
  "read_header raises if the first 132 bytes hold fewer than 12 blank-separated words; Header raises if the word size is neither 4 nor 8 or if neither variables nor nb_vars are given.",
  "all byte contents of the header / all constructor arguments", "Universal over inputs.",
  F+":read_header", F+":Header.__attrs_post_init__")
p("C09", "skip_vars only omits the named variables",
  "For a complete (single-file) field file, readnek(fname, skip_vars=S) returns the same metadata and the same values as readnek(fname) for all variables not named in S, and zeros for those named.",
  "all field files with nb_elems_file = nb_elems, all sets of names including the aliases vx,vy,vz,p,t",
  "2^(number of variables) subsets times all files.",
  F+":readnek")
p("C10", "skip_vars is also safe on one part of a multi-file field",
  "The statement of C09 for files holding only a part of the elements (nb_elems_file < nb_elems).",
  "all multi-file parts, all sets of names", "As C09; no multi-file sample is in the tests.",
  F+":readnek.skip_elements")
p("C11", "A zero in the element map only changes the order, never loses data",
  "If elmap contains a zero, readnek assigns the i-th block of the file to element i for every variable (and otherwise block i to element elmap[i]); if elmap has no zero and some variable is stored, an elmap entry larger than nel makes it raise.",
  "all files and element maps", "Universal over element maps.", F+":readnek")
p("C12", "A truncated field file is never read as a complete one",
  "If a file written by writenek is cut (crash during write) at any byte before the end of its data section, readnek without skip_vars raises; if only bytes of the trailing min/max section are lost the data read are complete and unchanged.",
  "every crash point (byte length), every field",
  "All crash points of all files.", F+":writenek", F+":readnek")
p("C13", "Byte-order tag is recognised exactly",
  "The tag written by writenek/writere2 in either byte order is recognised as that byte order by readnek, readre2 and readma2; a 4-byte tag is accepted in a byte order if and only if it is a single-precision number in [6.54321, 6.54322) in that order.",
  "all 2^32 tags", "Exhaustive over tags.", F+":readnek", M+":readre2", MA+":readma2")
p("C14", "A rejected write leaves an existing file intact",
  "If writenek or writere2 raises ValueError because the data structure is not valid for the format, a file that already exists under that name keeps its content.",
  "all data structures, all previous file contents", "Crash/exception points for every input.",
  F+":writenek", M+":writere2")
p("C15", "A field without any variable is refused or survives the round trip",
  "If writenek accepts a field with no variable at all (var = 0,0,0,0,0) then readnek can read the file.",
  "all fields with all-zero var", "Corner of an unbounded domain.", F+":Header", F+":read_header")
# ---------------------------------------------------------------- re2
p("C16", "writere2 then readre2 restores a mesh (native byte order)",
  "For a valid 2D/3D mesh with fewer than 10^8 elements, at least one BC field, byte order equal to the machine's, one-character curvature types and BC names of at most 3 ASCII characters without trailing blanks, readre2(writere2(mesh)) returns the same dimension, element count, vertex coordinates, curvature types and parameters, and for every external or periodic BC the same name and five parameters; internal ('E') and empty BCs come back empty.",
  "all meshes, element counts, curvature and BC assignments, any number of BC fields",
  "Unbounded meshes and field counts.", M+":writere2", M+":readre2")
p("C17", "Byte order does not affect .re2 meshes",
  "The statement of C16 for byte order different from the machine's.",
  "as C16 with foreign byte order", "Tests only use native byte order files.", M+":readre2", M+":writere2")
p("C18", ".re2 header supports every element count that fits its columns",
  "For each element count that fits the 9-character column of the .re2 header, readre2 recovers the element count and dimension that writere2 wrote.",
  "all element counts below 10^9", "The limiting meshes are far too large to build in a test.",
  M+":writere2", M+":readre2")
p("C19", "writere2 refuses meshes that are not plain vertex meshes",
  "writere2 raises ValueError, before touching the file system, exactly when lr1 is not the list [2, 2, ndim-1] or var[0] differs from ndim.",
  "all meshes", "Universal; includes non-modification of the file system.", M+":writere2")
p("C20", ".re2 curve count is the true one whatever the metadata says",
  "The number of curved sides in a file written by writere2, and hence ncurv after readre2, is the number of edges with non-empty curvature type, independent of the ncurv attribute of the mesh.",
  "all meshes, any ncurv attribute", "Universal.", M+":writere2", M+":readre2")
p("C21", "Number of BC fields survives the .re2 round trip",
  "readre2(writere2(mesh)).nbc = mesh.nbc.", "all meshes, all nbc including 0", "Universal.", M+":readre2", M+":writere2")
# ---------------------------------------------------------------- rea
p("C22", "writerea then readrea restores a mesh",
  "For a vertex mesh whose ncurv attribute is accurate, with at least one BC field, BC names of at most two characters, and values representable in the printed digits, readrea(writerea(mesh)) restores dimension, element count, vertex coordinates, curved sides and boundary conditions, with empty BCs coming back empty.",
  "all element counts (three different column layouts: <10^3, <10^6, larger), any number of fields, curves, BCs",
  "Layout switches at 10^3 and 10^6 elements; unbounded meshes.", M+":writerea", M+":readrea")
p("C23", "Writing a mesh does not modify it",
  "writerea, writere2 and writenek leave the mesh passed to them unchanged.",
  "all meshes", "Requires a frame condition for every mesh.", M+":writerea", M+":writere2", F+":writenek")
p("C24", "Three-letter boundary conditions survive the .rea round trip",
  "BC names of three characters (e.g. 'SYM', which the data structure can hold) written by writerea are read back unchanged by readrea.",
  "all three-character names", "Universal over names.", M+":writerea", M+":readrea")
p("C25", ".rea round trip does not depend on the ncurv metadata",
  "The statement of C22 without assuming that the ncurv attribute equals the number of curved edges (for instance for a mesh just made by gen_circle).",
  "all meshes with any ncurv attribute", "Universal.", M+":writerea", T+":gen_circle", T+":map2D")
p("C26", "A mesh without BC fields survives the .rea round trip",
  "The statement of C22 for nbc = 0.", "all meshes with nbc = 0", "Universal.", M+":writerea", M+":readrea")
# ---------------------------------------------------------------- ma2, simson
p("C27", "readma2 decodes every map file",
  "For each list of (processor, vertex ids) records with a common positive number of vertices, the .ma2 file encoding it in either byte order is decoded by readma2 to exactly these processors and vertex ids; a file whose data part is too short raises.",
  "all element counts, vertex counts, int32 values, both byte orders", "Universal over files.", MA+":readma2")
p("C28", "readplane decodes every 2D plane file",
  "A 2D SIMSON plane file (Fortran records, either byte order) with coordinates x, y and data on an n0 x n1 grid, stored in column-major order, is decoded so that entry [i,j] of each returned array is the value stored for (i,j).",
  "all grid sizes and values, both byte orders", "Universal over grids.", S+":readplane")
p("C29", "readplane also reads 1D and 3D plane files",
  "The statement of C28 for one- and three-dimensional plane files.", "all 1D/3D plane files", "The code marks these paths as untested.", S+":readplane")
p("C30", "readdns stores every spanwise Fourier plane",
  "When readdns reads a velocity component, each plane read from the file goes to its own spanwise wavenumber slot, so no plane is overwritten by another and none of the slots is left unset.",
  "all even spanwise resolutions", "Universal over resolutions.", S+":readdns")
p("C31", "readdns supports passive scalars",
  "A SIMSON file announcing 1 to 100 passive scalars can be read.", "all files with nscal >= 1", "Marked 'not tested' in the code.", S+":readdns")
# ---------------------------------------------------------------- core
p("C32", "lims are the exact extrema over all elements",
  "For a mesh with at least two elements, lims reports for each component of each variable a value that bounds all values of that component from below (above) and is attained; the result does not depend on the order of the elements, and variables with no components give an empty tuple.",
  "all meshes with two or more elements, all arrays", "Universal; order independence.", C+":DataLims")
p("C33", "lims works on every non-empty mesh",
  "lims (and so repr) is defined for every mesh with at least one element.", "all non-empty meshes", "Universal.", C+":DataLims.__init__")
p("C34", "lims objects are immutable",
  "After construction no attribute of the lims object can be rebound: each attempt raises AttributeError and leaves every attribute as it was, for any sequence of attempts.",
  "all sequences of attribute assignments", "All histories.", C+":DataLims.__setattr__")
p("C35", "face_center is the mean of the four corners of the face",
  "For each face 0..5, face_center returns the mean of the four corner points of that face (-y, +x, +y, -x, -z, +z) for any element order; for a 2D element faces 0-3 it is the midpoint of the edge; other face numbers raise.",
  "all elements, orders and faces", "Universal.", C+":Elem.face_center")
p("C36", "smallest_edge is the length of the shortest edge",
  "smallest_edge returns the minimum of the lengths of the 4 (2D) or 12 (3D) edges of a vertex element.",
  "all elements", "Universal.", C+":Elem.smallest_edge")
p("C37", "check_connectivity succeeds exactly on mutually linked meshes",
  "check_connectivity returns True if and only if each internal/periodic face of each field names an existing element whose named face has the same condition and names it back, and for internal faces the face centres are within tol times the smallest edge; it raises otherwise.",
  "all meshes, fields, tolerances", "An iff over all meshes.", C+":HexaData.check_connectivity")
p("C38", "check_bcs_present succeeds exactly if no condition is missing",
  "check_bcs_present returns True if and only if each of the 2*ndim faces of every element has a non-empty condition in every field; it raises otherwise.",
  "all meshes", "An iff over all meshes.", C+":HexaData.check_bcs_present")
p("C39", "merge concatenates the meshes",
  "After a.merge(b) the element list is that of a followed by that of b with identical geometry, curvature and non-BC data; nel and ncurv are the sums; elmap is a permutation of 1..nel if both were; b is unchanged; meshes of different dimension or order are rejected leaving a unchanged.",
  "all pairs of meshes", "Universal; frame conditions.", C+":HexaData.merge")
p("C40", "merge preserves valid connectivity",
  "If a and b are validly connected, no face is its own periodic partner, each boundary face touches at most one face of the other mesh and touching faces are both periodic or both non-periodic, then the merged mesh is validly connected and touching boundary faces are now linked by 'E'.",
  "all pairs of meshes, any notion of touching (any tolerance, any rounding)",
  "Requires an invariant over a loop of unbounded length.", C+":HexaData.merge")
p("C41", "merge result passes check_connectivity",
  "Under the hypotheses of C40 the merged mesh passes check_connectivity with every tolerance at least as large as the one used for the merge (and as the ones a and b satisfy).",
  "all pairs of meshes, all tolerances", "Universal.", C+":HexaData.merge", C+":HexaData.check_connectivity")
p("C42", "merge counts the connections it makes",
  "The number returned by merge equals the number of pairs of touching non-internal faces (respecting ignore_empty); it is 0, and no condition changes except for renumbering, with ignore_all_bcs.",
  "all pairs of meshes, flags", "Universal.", C+":HexaData.merge")
p("C43", "offset_connectivity shifts exactly the links past the threshold",
  "offset_connectivity(k, m) adds k to the element index of each internal/periodic link to an element with zero-based index at least m and changes no other link, name, face, geometry; applying it with k and then -k (where nothing crosses the threshold) restores the mesh; offsets add up.",
  "all meshes, offsets, thresholds", "Universal.", C+":HexaData.offset_connectivity")
p("C44", "update_ncurv counts the curved edges",
  "After update_ncurv, ncurv equals the number of (element, edge) pairs with non-empty curvature type; nothing else changes; it is idempotent.",
  "all meshes", "Universal.", C+":HexaData.update_ncurv")
p("C45", "get_points lists every point once in storage order",
  "get_points()[e, (iz*ly1+iy)*lx1+ix, d] equals elem[e].pos[d, iz, iy, ix] for all in-range indices.",
  "all meshes and orders", "Universal.", C+":HexaData.get_points")
# ---------------------------------------------------------------- meshtools
p("C46", "extrude builds the stacked geometry",
  "extrude(mesh, z) gives nel*(len(z)-1) elements; element i + nel*k has the (x, y) of element i on both of its z-faces, which lie at z[k] and z[k+1]; the curvature of edges 0-3 is copied to 4-7, with midpoint z values set to z[k], z[k+1].",
  "all 2D meshes, all z arrays", "Universal.", T+":extrude")
p("C47", "extrude preserves valid connectivity",
  "If the 2D mesh is validly connected through faces 0-3 and the end conditions are periodic on both or neither end (and not 'E'), the extruded mesh with internal_bcs=True is validly connected.",
  "all 2D meshes, all numbers of layers, any fields", "Unbounded layers and elements.", T+":extrude")
p("C48", "extruded mesh passes check_connectivity",
  "If moreover linked faces of the 2D mesh have equal centres, extrude(mesh, z).check_connectivity(tol) returns True for every tol >= 0.",
  "all 2D meshes, z, tol", "Universal.", T+":extrude", C+":HexaData.check_connectivity")
p("C49", "extrude refuses unsuitable input",
  "extrude raises ValueError if the mesh is not 2D, lr1 is not the list [2,2,1], it has no (x,y) geometry or exactly one end is periodic in some field, and otherwise does not raise these errors; the input mesh is not modified.",
  "all meshes and conditions", "Universal.", T+":extrude")
p("C50", "extrude(internal_bcs=False) leaves no internal condition",
  "With internal_bcs=False the extruded mesh has no 'E' condition (for end conditions other than 'E').",
  "all 2D meshes, all numbers of layers", "Universal.", T+":extrude", T+":delete_internal_bcs")
p("C51", "Mesh tools keep the element map consistent",
  "After HexaData construction, merge, extrude, keep_elements, gen_box, map2D, rotate_2d (from meshes where it holds) elmap is a permutation of 1..nel, so that the mesh can be written by writenek.",
  "all meshes and operation sequences", "All histories.", T+":extrude", T+":keep_elements", C+":HexaData")
p("C52", "delete_internal_bcs removes all and only internal conditions",
  "After delete_internal_bcs no face has condition 'E', all other conditions are unchanged, the removed ones are blank with all seven numbers zero, and the return value is the number removed; a second call returns 0 and changes nothing.",
  "all meshes", "Universal.", T+":delete_internal_bcs")
p("C53", "generate_internal_bcs only adds mutual links between close, free faces",
  "generate_internal_bcs never changes a face that had a condition in the first field, links faces of distinct elements in pairs pointing at each other, each within tol times the smaller length scale, and returns the number of new links times the number of fields; valid connectivity is preserved for single-field meshes.",
  "all meshes, tolerances", "Loop invariant over unbounded nested loops.", T+":generate_internal_bcs")
p("C54", "generate_internal_bcs leaves no close free pair",
  "Afterwards, no two faces of distinct elements that are both still without condition have centres within tol times the smaller length scale.",
  "all meshes, tolerances", "Completeness of a greedy loop.", T+":generate_internal_bcs")
p("C55", "generate_internal_bcs rejects degenerate elements",
  "It raises ValueError, without changing the mesh, if some element has a zero length scale, and does not raise otherwise for meshes with at least one BC field.",
  "all meshes", "Universal.", T+":generate_internal_bcs")
p("C56", "keep_elements keeps exactly the requested elements",
  "keep_elements(mesh, elems) with distinct valid indices leaves the requested elements, in increasing order, with geometry and curvature unchanged; nel and ncurv match; an index >= nel raises.",
  "all meshes and index lists in any order", "Universal.", T+":keep_elements")
p("C57", "keep_elements preserves valid connectivity",
  "If the mesh is validly connected and external_bc is neither 'E' nor 'P', the reduced mesh is validly connected: links between kept elements are renumbered to the same neighbours, links to removed elements become external_bc.",
  "all meshes and subsets", "2^nel subsets of every mesh.", T+":keep_elements")
p("C58", "rotate_2d is a rotation",
  "rotate_2d(mesh, 0, 0, theta) preserves the distance between any two points of the mesh, leaves z, connectivity and conditions unchanged, moves curvature midpoints like the vertices, and rotating by theta1 then theta2 equals rotating by theta1+theta2.",
  "all meshes, angles", "Universal over reals.", T+":rotate_2d")
p("C59", "rotate_2d rotates around the given centre",
  "The point (x0, y0) is fixed by rotate_2d(mesh, x0, y0, theta) and distances to it are preserved.", "all centres and angles", "Universal.", T+":rotate_2d")
p("C60", "gen_box tiles the rectangle",
  "gen_box(nx, ny, ...) has nx*ny elements; element i + nx*j is the axis-parallel rectangle between the i-th, (i+1)-th of nx and the j-th, (j+1)-th of ny equal subdivisions; the outermost ones lie on the given bounds; there is a field of conditions for the velocity, the temperature and each scalar, and shorter lists of conditions raise IndexError; empty ranges raise.",
  "all nx, ny >= 1, all bounds", "Universal.", T+":gen_box")
p("C61", "gen_box is validly connected and passes its own checks",
  "With conditions that are periodic on both or neither of two opposite sides, never 'E' and non-empty, gen_box(...).check_connectivity(tol) is True for all tol >= 0 and check_bcs_present() is True when internal_bcs=True.",
  "all nx, ny >= 1, bounds, fields, conditions", "Unbounded sizes.", T+":gen_box", C+":HexaData.check_connectivity")
p("C62", "gen_box refuses one-sided periodicity",
  "If in some field exactly one of two opposite sides is periodic gen_box raises instead of building an invalid mesh.", "all such arguments", "Universal.", T+":gen_box", T+":extrude")
p("C63", "gen_circle has the documented size and boundary",
  "gen_circle(r, s, ns, no) has ns^2 + 4*ns*no elements, exactly 4*ns curved edges, all of radius r and on the boundary faces that carry bc.",
  "all ns, no, r, s, curvature and spacing functions", "Universal.", T+":gen_circle")
p("C64", "Mesh generators keep the curve count metadata accurate",
  "The ncurv attribute of meshes returned by gen_circle, map2D, extrude and keep_elements equals the number of curved edges (if it did for the input).",
  "all arguments", "Universal.", T+":gen_circle", T+":map2D", T+":extrude", T+":keep_elements")
p("C65", "gen_circle works with a single O-grid layer",
  "gen_circle(r, s, ns, 1) with default spacing returns a mesh.", "all r, s, ns", "Universal.", T+":gen_circle", T+":exponential_refinement_parameter")
p("C66", "exponential_refinement_parameter solves the geometric sum",
  "Away from alpha = 1 an exact zero of the error function used by the Newton iteration is a ratio for which l0*(1+alpha+...+alpha^(n-1)) = ltot; alpha = 1 is returned if n*l0 = ltot; the iteration stops after at most 10000 steps.",
  "all l0, ltot, n >= 2", "Universal over reals.", T+":exponential_refinement_parameter")
p("C67", "map2D maps the vertices and keeps the topology",
  "map2D applies the transformation to each vertex of each element, leaves conditions and links unchanged, marks as midpoint-curved exactly the edges requested (all, the already curved, boundary edges), with midpoint the image of the original edge midpoint; if linked faces have the same end points the result still has coinciding linked faces.",
  "all meshes, transformations, flags", "Universal over functions.", T+":map2D", T+":edge_mid")
p("C68", "map2D does not modify its input",
  "The mesh passed to map2D is unchanged.", "all meshes", "Frame condition.", T+":map2D", T+":edge_mid")
p("C69", "edge_mid returns the midpoint of the edge",
  "For a straight edge edge_mid returns the mean of its end points; for an arc 'C' of radius R (|R| at least half the chord) the returned point is equidistant from both ends and lies on a circle of radius |R| through both; for 'm' it returns the stored midpoint.",
  "all elements and edges 0..11", "Universal over reals.", T+":edge_mid")
p("C70", "edge_mid and edge_circle do not modify the element",
  "Calling edge_mid or edge_circle leaves the element unchanged, so repeated calls agree.", "all elements and edges", "Frame condition.", T+":edge_mid", T+":edge_circle")
p("C71", "edge_circle returns the circle through three points",
  "If the triangle (end, midpoint, end) is not too flat, the centre returned by edge_circle is at distance |radius| from all three points and the sign of the radius is the orientation; otherwise radius 0 is returned.",
  "all elements, edges, midpoints", "Universal over reals.", T+":edge_circle")
p("C72", "extrude_mid makes six elements per column and four layers",
  "extrude_mid on a mesh whose elements each have two corners on either side of the splitting function returns nel*6*(nz/4) elements; otherwise, or if nz is not a multiple of 4, it raises ValueError.",
  "all meshes, functions, nz", "Universal.", T+":extrude_mid")
p("C73", "extrude_mid builds valid connectivity",
  "If the 2D mid mesh is validly connected through its lateral faces, the links written by extrude_mid are mutual.",
  "all mid meshes, nz", "Unbounded.", T+":extrude_mid")
p("C74", "extrude_mid fills the slab",
  "The six elements of a column tile the four layers: consecutive elements share their faces exactly (same corner coordinates).",
  "all mid meshes with straight edges, z", "Universal.", T+":extrude_mid")
p("C75", "extrude_refine defaults work as documented",
  "extrude_refine with fun omitted performs the simple extrusion, and with funpar omitted uses zero parameters.", "all meshes, z", "Universal.", T+":extrude_refine")
p("C76", "extrude_refine partitions the mesh",
  "Each split sorts every remaining element into exactly one of internal, intermediate and external part; the total number of 3D elements is determined by the part sizes and the layer counts.",
  "all meshes, functions", "Universal.", T+":extrude_refine")
p("C77", "extrude_mid handles spherical curvature",
  "A mid mesh with an edge of curvature type 's' is converted (with a warning) rather than rejected with an exception.", "all such meshes", "Universal.", T+":extrude_mid")
# ---------------------------------------------------------------- dataset, vtk
p("C78", "can_open_nek_dataset accepts exactly the Nek extensions",
  "A path is accepted if and only if its extension is .fld or .f followed by exactly five digits.", "all strings", "Infinite set of names.", D+":nek_ext_pattern", D+":can_open_nek_dataset")
p("C79", "meshgrid_to_dim inverts meshgrid",
  "For a box element whose coordinate along one axis takes values distinct after rounding to 8 digits and does not vary along the others, the 1D coordinate extracted is the sorted list of these values; in general it has one entry per distinct rounded value, in increasing order, each occurring in the mesh.",
  "all arrays, axes, sizes", "Universal.", D+":_NekDataStore.meshgrid_to_dim")
p("C80", "Dataset variables do not collide",
  "get_variables lists x,y,z, the three meshes, three velocities, pressure/temperature if present and one distinct name per scalar, each mapped to the right component, for any number of scalars.",
  "all numbers of scalars", "Unbounded.", D+":_NekDataStore.get_variables")
p("C81", "hexa2vtk numbers points without collision and in bounds",
  "For 3D fields of order at least 2 each grid point of each element gets its own row in the point arrays, within bounds, with or without downsampling.",
  "all orders, element counts", "Universal.", V+":hexa2vtk")
p("C82", "hexa2vtk cells are the sub-cells of the elements",
  "For 3D fields each VTK cell lists the 8 corner points of one sub-cell, in VTK order, and each sub-cell of each element appears exactly once.",
  "all orders, element counts", "Universal.", V+":hexa2vtk")
p("C83", "hexa2vtk also works for 2D fields",
  "The statement of C81/C82 for 2D fields: points carry the coordinates of the field and cells the corners of the quads.", "all 2D fields", "Universal.", V+":hexa2vtk")
p("C84", "extrude_mid leaves the plane mesh as it was",
  "extrude_mid does not change the mesh it is given, so that all blocks of four layers are made from the same curved edges.", "all mid meshes, z", "Universal.", T+":extrude_mid")
p("C85", "extrude_mid puts conditions on the right faces",
  "With internal_bcs every face inside a column and between two blocks is an internal link to the face it coincides with; the outer faces keep the type of condition of the plane mesh and the ends get bc1 and bc2.",
  "all mid meshes, z, conditions", "Unbounded number of elements and layers.", T+":extrude_mid")
p("C86", "The two classifications of extrude_refine agree",
  "An element with two corners on each side of a splitting line (the function is not positive at two corners and positive at the others) that is sorted as intermediate is accepted by extrude_mid, on whichever side the mesh is finer.",
  "all elements, functions, values of imesh_high", "All functions.", T+":extrude_refine", T+":extrude_mid")
p("C87", "The check of the number of layers in extrude_refine suffices",
  "If nz is a multiple of 2**|imesh_high+1| and 2**|nsplit-imesh_high+1| then every coarsening used divides nz and the number of layers of each intermediate mesh is a multiple of 4, so that the check inside the loop never fails.",
  "all integers", "Unbounded.", T+":extrude_refine")
p("C88", "hexa2vtk shows no points but those of the field",
  "Every row of the array of points is a grid point of an element.", "all fields", "Universal.", V+":hexa2vtk")
p("C89", "Coordinates of box elements are not lost",
  "For a box element with increasing coordinates along an axis the 1D coordinate extracted consists of all of them, so that the sizes of the variables agree.", "all box elements", "All scales.", D+":_NekDataStore.meshgrid_to_dim")
p("C90", "generate_internal_bcs and delete_internal_bcs turn the two kinds of box into each other",
  "generate_internal_bcs applied to gen_box(..., internal_bcs=False) gives gen_box(..., internal_bcs=True) with all records equal, and delete_internal_bcs the reverse; the numbers returned are the number of inner faces, once and twice, times the number of fields.",
  "all grids, sizes, aspect ratios, numbers of fields, tolerances below one half", "Universal.", T+":generate_internal_bcs", T+":delete_internal_bcs", T+":gen_box")
p("C91", "Merging stacked boxes connects their common side and nothing else",
  "Merging two boxes with the same columns of elements, the second on top of the first, connects each upper face of the first with the face of the second at the same place; all other faces keep their condition.",
  "all grids, sizes, aspect ratios, conditions", "Universal.", C+":HexaData.merge", C+":Elem.smallest_edge", T+":gen_box")
p("C92", "readdns decodes the header and the coefficients of every velocity file",
  "For a file laid out as SIMSON velocity fields without scalars are (header record, size record, flow record, records that depend on the flow type, then for each component, spanwise and wall-normal index one record with a line of coefficients), readdns returns the numbers in the header, its byte order, and fields made of these coefficients: those of each plane are in exactly the slot given by the code's numbering.",
  "all sizes with one or an even number of spanwise points, all flow types, both byte orders, all numbers and marks", "Universal over files.", S+":readdns")
p("C93", "readdns returns the velocity field whose Fourier coefficients are in the file",
  "The velocity component c that readdns returns is, in exact arithmetic and up to the sign (-1)^c, the real field with the coefficients stored in the file: the sum of the waves with streamwise wavenumber zero plus twice the real part of the others.",
  "all velocity files without scalars", "The tests compare no value of the velocity.", S+":readdns")
p("C94", "readdns returns the grid of the simulation",
  "In exact arithmetic the coordinates depend on their own index only; x starts from 0 in steps of boxX/nx, y increases from 0 to 2/dstar and is symmetric, z starts from -boxZ/2 in steps of boxZ/nz.",
  "all velocity files without scalars with at least two wall-normal points", "Universal over sizes and reals.", S+":readdns")
p("C95", "writevtk names the file after the given name, with the extension .vtp",
  "For every non-empty last component of the path the file that is written has the extension .vtp and otherwise the stem of the given name; a name that already has this extension is not changed, so writing to the name that was used gives the same file.",
  "all file names", "Universal over strings.", V+":writevtk")
p("C96", "writevtk writes different fields to different files",
  "Two different file names give two different files, so that converting the files of a time series under their own names loses none of them.", "all pairs of file names", "Universal over pairs of strings.", V+":writevtk")
p("C97", "edge_mid returns the middle of an arc on a sphere",
  "For an edge of type 's' whose first four parameters are centre and radius (as Nek5000 stores them), with both ends on the sphere and not opposite to each other, edge_mid returns the middle of the great circle arc: the point of the sphere in the direction of the middle of the chord.",
  "all elements and edges 0..11", "Universal over reals; no test has such an edge.", T+":edge_mid")
p("C98", "writere2 writes the layout of .re2 files",
  "The file consists of 80 characters with the version, the number of elements (9 columns), the dimension (3 columns) and the number of elements again, a 4-byte tag, for each element a zero and the coordinates of the vertices component by component, counter-clockwise on the lower and then on the upper side, then the number of curved edges and their 64-byte records, and for each field the number of boundary conditions other than 'E' and their 64-byte records; records are in the order of elements and edges or faces, count both from 1, and everything is in the byte order of the mesh.",
  "all 2D and 3D vertex meshes with fewer than 10^9 elements", "Universal; a round trip does not notice an order of vertices that reader and writer have both wrong.", M+":writere2")
p("C99", "readre2 reads every well-formed .re2 file in the native byte order",
  "For a file that consists of a header (a word, the number of elements, the dimension), the tag, the coordinates, a section of curved edges and any number of sections of boundary conditions, the mesh returned has these coordinates, the type and parameters of the last record for each edge, and the name (without padding), numbers and parameters of the last record for each face in each field; edges and faces without record are empty; nbc is the number of sections, at least 1. The numbers before the coordinates, the bytes after the type of a curved edge and the order of the records do not matter.",
  "all files, dimensions 2 and 3, any number of sections and records", "Universal over files that pymech does not write itself; round-trip tests only see its own files.", M+":readre2")
p("C100", "writerea writes the layout of .rea files",
  "The file consists of lines: dimension, 118 numbered parameters, 4 lines of passive scalar data, 13 switches, the number of elements and the dimension; for each element a title and, component by component, the four vertices of the lower and in 3D of the upper side, counter-clockwise, in columns of 14 characters with seven digits; the number of curved edges and a line for each of them, in order, with the numbers of edge and element in columns whose width depends on the number of elements, five parameters and the type; for each field a title and a line for each face of each element, with the type (E for empty ones), the numbers of element and face, and five parameters; finally options whose counts agree with the lines that follow.",
  "all 2D and 3D meshes that fit the columns, any number of fields", "Universal; a round trip does not notice an order of vertices, or columns, that reader and writer have both wrong.", M+":writerea")
p("C101", "exponential_refinement_parameter uses the derivative of its error function",
  "The function that divides the error in the Newton iteration is the derivative of the logarithm of l0*(1+alpha+...+alpha^(n-1))/ltot (near alpha = 1: the tangent of the derivative), and every step moves the ratio in the direction in which the sum approaches ltot.",
  "all lengths, numbers of elements and ratios", "A wrong derivative only shows up as slow convergence.", T+":exponential_refinement_parameter")
p("C102", "The default layers of gen_circle start at the square, end on the circle, and begin with the size of its elements",
  "Without bl_fun, the layers of the O mesh grow by a constant ratio, the first begins at the side of the square, the last ends on the circle, and between the middle of a side and the circle the first layer is as wide as an element of the square.",
  "all radii, sizes of the square, curvature functions, and at least two layers", "Universal over real parameters; the initial guesses are wrong only for special values.", T+":gen_circle")
p("C103", "open_dataset accepts box meshes only and labels the data by their coordinates",
  "A field whose elements are boxes aligned with the axes is opened, and the labels of each position are the coordinates of the point stored there; every other field, or name, is refused with NotImplementedError.",
  "all fields, orders and orientations of elements", "Test data have elements in the usual orientation; wrong labels raise no error.", D+":open_dataset", D+":_open_nek_dataset", D+":_NekDataStore.get_variables")
p("C104", "centroid returns the mean of the points of an element",
  "Each coordinate of the centroid is the mean of this coordinate over all points of the element; it lies between the least and the greatest of them, and is the centre of symmetry of elements that have one.",
  "all elements of all orders in 2D and 3D", "Universal over reals.", C+":Elem.centroid")
p("C105", "Meshes merged one after the other are connected exactly where they touch",
  "If several valid meshes fit (no face is near two faces of other meshes, periodic faces only touch periodic faces), then merging them one after the other succeeds, the result is valid, consists of the elements of all meshes in order, contains a connection between any two faces of different meshes that are near each other, and all other faces keep their condition.",
  "any number of meshes of any size, all tolerances", "Universal; the hypotheses are about the parts, not about intermediate results.", C+":HexaData.merge")
p("C106", "gen_circle connects all faces except those on the circle",
  "With internal_bcs=True, for increasing layers from the square to the circle, conditions other than 'E' and 'P', and elements that are not extremely elongated (the smallest edge of an element as measured by smallest_edge at most 20 times the side of the elements of the square), the mesh passes check_connectivity with every tolerance, connected faces have the same centre, faces on the sides of the square are connected with the quarters of the O mesh and faces on the diagonals with those of the next quarter, faces on the circle have the given condition, and all other faces are connected.",
  "all radii, sizes of the square, numbers of elements and layers, spacings, curvatures and numbers of fields", "Universal over real parameters; trigonometric functions decide which faces meet.", T+":gen_circle")
p("C107", "extrude_mid keeps the mesh conforming: edges that coincide have the same curve",
  "If the sides of the plane mesh fit together (two sides with the same ends are the same curve: straight, through the same point, or arcs of the same radius, opposite for opposite directions) and the mesh is not degenerate, any two of the twelve edges of any two elements made by extrude_mid that have the same ends are the same curve, slanted edges included. Every edge is described: halves of sides through a point bend by a quarter, the upper half of an arc becomes a curve through its middle, the new edge in the middle of an element bends by the mean of the low and the high side, and edges in z direction are straight. With arcs this is claimed for one block of four layers.",
  "all plane meshes with straight sides, midpoints and arcs, splitting functions, heights and end conditions", "Twelve edges of six elements in every column with three types of curvature on each of four sides: far too many combinations, and the existing tests look at sizes only.", T+":extrude_mid", T+":edge_mid", T+":edge_circle")
p("C108", "edge_circle and edge_mid undo each other, and rings are refined by concentric arcs",
  "For an edge in a horizontal plane with exact arithmetic: edge_circle applied to the midpoint that edge_mid finds for an arc returns the radius of the arc with its sign and puts it back into the element, and returns 0 exactly if the radius is at least 2500 times the chord. Conversely edge_mid applied to the radius that edge_circle finds for a midpoint above the middle of the chord returns that midpoint if the arc is at most a semicircle, and the middle of the shorter arc otherwise. In a sector of a ring (concentric arcs as low and high side, straight lateral sides) all edges that extrude_mid makes between the middles of the lateral sides are arcs of the mean radius.",
  "all edges, arcs, midpoints and sectors (real numbers)", "The sign conventions of the two functions are written with different formulas (bend to the right, clockwise triangles); agreement for all directions of the chord is a statement about real numbers.", T+":edge_mid", T+":edge_circle", T+":extrude_mid")
p("C109", "extrude_refine with internal_bcs connects the parts and leaves no dummy condition",
  "For a valid plane mesh whose intermediate elements have a high and a low side, whose parts meet with equal resolution, and in which sides that are not connected are not extremely close, extrude_refine with internal_bcs=True returns a mesh which passes check_connectivity for every tolerance: links are mutual, connected faces have the same four vertices, the rectangles above a side between two parts are connected in all fields, and every other face has an end condition or the condition of a side of the plane mesh; the condition 'con' given to cut sides on the way is left nowhere.",
  "all plane meshes, numbers of splits, functions and parameters, positions of the fine part, heights and end conditions", "Which faces merge connects depends on distances between faces of all parts, resolutions and link tables; the tests only count elements and compare one mesh.", T+":extrude_refine", T+":extrude_mid", T+":keep_elements", C+":HexaData.merge")
p("C110", "Numbers in headers are read exactly as written",
  "The numbers that read_header returns are the ones denoted by the words of the header: an integer is an optional sign and decimal digits between which single underscores may stand; a floating point number is a signed decimal number with or without point and exponent, read as the nearest double (ties to even, infinity beyond the largest one), or a name of NaN or infinity. If one of the words is not of this form, ValueError is raised.",
  "all contents of a header", "Infinitely many numerals; rounding of decimal numbers with any number of digits and any exponent.",
  F+":read_header", F+":Header")
p("C111", "A field file that is read and written again keeps its numbers byte for byte",
  "For every file that readnek accepts and whose element map names each element once, whichever program wrote it: writenek of the result succeeds and its file consists of a header with the same word size, orders, counts, time and step, a tag, the element map and all blocks of numbers of the original file byte for byte (in its byte order), and in 3D freshly computed extreme values. This holds for double precision, for single precision read into float32 arrays, and for single precision read into float64 arrays if there is no signalling NaN.",
  "all byte contents of a field file, both byte orders, all word sizes and dtypes that fit", "Universal over all files, including all bit patterns of numbers; the tests rewrite a few files.",
  F+":readnek", F+":writenek")
p("C112", "A part of a multi-file field that was read can be written and read again",
  "A field obtained from readnek, whether its file contains all elements or only some of them (one of several files of the same field), can be passed to writenek, and the file can be read again.",
  "all field files with any nb_elems_file", "Universal; the tests only write complete fields.",
  F+":readnek", F+":writenek")
p("C113", "A .re2 file that is read and written again is reproduced byte for byte",
  "If writere2 writes a file, readre2 reads it and writere2 writes the result again, the second file equals the first, byte for byte.",
  "all vertex meshes, both byte orders, any number of fields including 0", "Universal over meshes and all values of their numbers (NaN payloads and signed zeros included).",
  M+":readre2", M+":writere2")
p("C114", "A .rea file that is read and written again is reproduced",
  "If the file that writerea wrote for a mesh is read by readrea and the result is written by writerea, the second file equals the first, character by character.",
  "all meshes that a .rea file can hold, with at least one field of boundary conditions", "Requires all double precision numbers and all conditions; printing with a given number of digits is not idempotent by definition.", M+":readrea", M+":writerea")
p("C115", "writere2 leaves no incomplete file",
  "writere2 either writes the complete file and raises nothing, or raises an exception and leaves the file system as it was.",
  "all meshes, including those whose arrays are smaller than announced", "Requires to follow every path on which an exception is raised.", M+":writere2")
p("C116", "Map files are never misread",
  "If readma2 returns, then the second and the sixth word of the first 132 bytes are the numbers of elements and of vertices, the tag shows the byte order, the records of all elements stand in full behind it, and what is returned are the numbers of these records. Files that are too short or have fewer words in the header raise an exception.",
  "all byte contents of a file", "Universal over byte strings.", MA+":readma2")
p("C117", "writerea leaves no incomplete file",
  "writerea either writes the complete file and raises nothing, or raises an exception and leaves the file system as it was.",
  "all meshes in two or three dimensions, including those whose arrays are smaller than announced", "Requires to follow every path on which an exception is raised.", M+":writerea")
p("C118", "writenek leaves no incomplete file",
  "writenek either writes the complete file and raises nothing, or raises an exception and leaves the file system as it was.",
  "all fields, including those whose arrays are smaller than announced and whose element map names missing elements", "Requires to follow every path on which an exception is raised.", F+":writenek")
p("C119", "readrea reads every well-formed .rea file",
  "From every well-formed .rea file, whatever its titles, parameters, scalars, switches and trailing sections, readrea returns the mesh that the file describes: vertices, curved edges, boundary conditions of every field that has any.",
  "all texts whose lines have the documented structure, with any number of elements, curved edges and fields", "Files come from many programs and versions; every layout of titles and columns and every way to write a number counts.", M+":readrea")
p("C120", "A truncated .re2 file is never read as a complete one",
  "If a well-formed .re2 file loses bytes at its end, readre2 raises an exception instead of returning a mesh.",
  "all well-formed .re2 files in the byte order of the machine and all lengths to which they can be cut", "Every possible length of the remaining file has to be considered, and all contents.", M+":readre2")
p("C121", "A truncated .rea file is never read as a complete one",
  "If a .rea file loses characters at its end, readrea raises an exception or returns the mesh of the complete file.",
  "all texts that readrea reads, in particular those that writerea writes, and all lengths to which they can be cut", "Every possible length of the remaining text has to be considered, also cuts within a number, and all contents.", M+":readrea", M+":writerea")
p("C122", "A truncated SIMSON file is never read as a complete one",
  "If a velocity or plane file of SIMSON loses bytes at its end, readdns and readplane raise an exception or return what they return for the complete file; they raise if any byte of the numbers is lost.",
  "all byte strings and all lengths to which they can be cut", "Every possible length of the remaining file has to be considered, and all contents, grids and types of flow.", S+":readdns", S+":readplane")
p("C123", "rotate_2d commutes with the other mesh tools",
  "merge, generate_internal_bcs, delete_internal_bcs, keep_elements and extrude applied to meshes rotated by rotate_2d give the rotated result of the same call on the original meshes (same connections, same counts), or raise the same exception.",
  "all meshes, angles, tolerances and other arguments", "Universal over reals; a test can only try some angles, and rounding hides exact agreement.", T+":rotate_2d", C+":merge", T+":generate_internal_bcs", T+":extrude", T+":keep_elements")
p("C124", "rotate_2d also rotates the curved edges",
  "After rotate_2d the middle of each edge, as returned by edge_mid, is the rotated middle of the edge before, whatever kind of curvature the edge has.",
  "all meshes, edges and angles", "Universal over reals.", T+":rotate_2d", T+":edge_mid")
p("C125", "map2D respects the composition of transformations",
  "map2D(T, map2D(S, mesh)) is the same mesh as map2D of the composition of S and T, for each choice of curvature and boundary_curvature; the identity changes nothing in a mesh that has all requested midpoints, and an inverse transformation restores it.",
  "all transformations and meshes", "Universal over functions.", T+":map2D")
p("C126", "keep_elements twice is keep_elements once",
  "Keeping some elements and then some of those kept gives the same mesh as keeping the remaining ones at once (for an external condition other than E and P); keeping all elements changes nothing in a consistent mesh.",
  "all meshes whose links name existing elements, all sets of elements", "Universal over meshes and sets of elements.", T+":keep_elements")
p("C127", "keep_elements undoes merge",
  "After a.merge(b) without periodic faces, keep_elements for the elements of a gives a back, and for those of b the mesh b: every coordinate, curve and boundary record and the numbers of elements and of curved edges. Required: the faces that were connected had carried, in all fields, the external condition passed to keep_elements. (The element map is the subject of C51.)",
  "all pairs of meshes with consistent numbers and the same number of fields, all tolerances and external conditions other than E and P", "Universal over pairs of meshes and over how they touch, including faces that touch several others.", C+":merge", T+":keep_elements")
p("C128", "lims of the results of the mesh tools",
  "The limits of a merged mesh are, for each component of each variable, the smaller of the two minima and the larger of the two maxima; those of a mesh made by keep_elements lie within those of the original; extrude keeps the limits in x and y, and its limits in z are the least and the greatest z value.",
  "all meshes with at least two elements of the same shape, all arguments of the tools", "Universal over meshes and arguments.", C+":DataLims", C+":merge", T+":keep_elements", T+":extrude")
p("C129", "Line ends of .rea files do not matter",
  "A .rea file reads the same whether its lines end with \\n, \\r\\n or \\r, also if the ends are mixed (as long as an empty line ended by \\n does not follow a line ended by \\r, which would be one line end); so files written on any platform are read back, and what is read from truncated files does not depend on the line ends.",
  "all texts, all meshes in the range of the format, all truncations", "Universal over texts and over the ends of all lines.", M+":readrea", M+":writerea")
p("C130", "generate_internal_bcs overwrites no condition of any field",
  "A boundary condition that a mesh has in any of its fields is still there after generate_internal_bcs.",
  "all meshes with any number of fields, all tolerances", "Universal over meshes and over combinations of conditions in the fields.", T+":generate_internal_bcs")
p("C131", "What the SIMSON readers return is in the file",
  "Whatever the bytes of a file are, readdns returns a field only if the first four bytes, in the byte order it reports, are a header length between 44 and 1644, the number of fields is three plus the number of scalars that this length announces, there are points in x and in z, the length scale is not zero, and the file is long enough for all numbers of all fields. It returns -3 exactly when the first four bytes are such a length in neither byte order. readplane returns data only for two dimensions and only if the file is long enough for the coordinates and the values.",
  "all byte strings, all byte orders of the machine",
  "Tests read complete files written by SIMSON. Files that are no SIMSON files, are damaged or have impossible headers cannot be enumerated.",
  S + ":readdns", S + ":readplane")

p("C132", "gen_box is accurate in double precision",
  "With the rounding of double-precision arithmetic, gen_box succeeds, every coordinate is finite and within max(|min|, |max|)/2^50 of its exact place, the first coordinates are exactly xmin and ymin, coordinates do not decrease, points shared by elements have the same bits in all of them, and all boundary records (including the links, which are stored as floats) are those of exact arithmetic.",
  "all doubles xmin < xmax, ymin < ymax up to 2^900 in size, all nx, ny >= 1 with nx*ny <= 2^53, all conditions",
  "Universal over doubles; rounding errors depend on every bit of the arguments.", T+":gen_box")
p("C133", "gen_box ends exactly at xmax and ymax",
  "In double precision the last coordinates of the box are exactly xmax and ymax.",
  "all doubles xmin < xmax and all nx", "Universal over doubles; the error shows only for particular values.", T+":gen_box")
p("C134", "gen_box makes no element without width",
  "In double precision every element of the box has a positive width and height.",
  "all doubles xmin < xmax and all nx", "Universal over doubles; needs boxes that are narrow compared with their distance from the origin.", T+":gen_box")
p("C135", "check_connectivity accepts matching meshes in double precision",
  "With the rounding of double-precision arithmetic: check_connectivity accepts iff every linked face points to an existing face with the same condition that points back, and the computed distance of the centres of faces with condition E is at most the computed limit; it accepts every mesh with mutual links whose linked faces have the same corner coordinates (bit by bit), with any tolerance that is not negative; in particular every mesh made by gen_box, also where rounding has made elements flat.",
  "all meshes of doubles, with NaN and infinities in records and coordinates, all tolerances, all C libraries with sqrt(0) = 0 and 0**2 = 0", "Universal over doubles.", C+":HexaData.check_connectivity", C+":Elem.face_center", C+":Elem.smallest_edge", T+":gen_box")
p("C136", "check_connectivity only accepts faces that are near in double precision",
  "With the rounding of double-precision arithmetic, an accepted mesh has the centres of internally linked faces as near as tol times the smallest edge, up to rounding errors; and a mesh whose faces are nearer than that by a margin for rounding is accepted.",
  "all meshes of doubles and all tolerances", "Universal over doubles; fails for coordinates whose squares overflow or vanish.", C+":HexaData.check_connectivity", C+":Elem.face_center", C+":Elem.smallest_edge")

p("C137", "rotate_2d is accurate in double precision and keeps links",
  "With the rounding of double-precision arithmetic, rotate_2d moves every point and every stored midpoint to within X/2^49 + 2^-1070 of the exact rotation, if the cosine and sine it gets are accurate; it does not change z, and faces whose corners agree bit by bit still do afterwards, so the mesh passes check_connectivity.",
  "all meshes of doubles with coordinates up to 2^900 and all angles", "Universal over doubles and angles.", T+":rotate_2d")
p("C138", "edge_mid gives the same point from both elements at an edge in double precision",
  "With the rounding of double-precision arithmetic, edge_mid returns the same point for an edge that two elements share, whichever element it is called for: bit by bit for straight edges, midpoints and spheres, up to the signs of zeros for arcs. The midpoint of a straight edge lies between its ends.",
  "all pairs of elements and edges, with any doubles including infinities and NaN", "Universal over doubles; the formulas are evaluated in a different order.", T+":edge_mid")
p("C139", "edge_mid of an arc is accurate in double precision",
  "With the rounding of double-precision arithmetic, edge_mid returns a finite point near the middle of the arc for every arc that is at most half a circle.",
  "all arcs whose chord is at most the diameter", "Universal over doubles; fails for half circles.", T+":edge_mid")

p("C140", "lims of doubles are the exact extrema, and NaN if a value is NaN",
  "With doubles, lims reports for each component of each variable a smallest and a largest value over all elements and grid points, and NaN for both if one of the values is NaN, wherever it is; up to the signs of zeros the result does not depend on the order of the elements.",
  "all meshes of doubles with at least two elements of the same shape, with NaN and infinities", "Universal over doubles and positions of the NaN; comparisons with NaN are false, so that a NaN is easily lost.", C+":DataLims")

p("C141", "merge links touching faces and gives a valid mesh in double precision",
  "With the rounding of double-precision arithmetic, in the test of distances and in the element numbers that are shifted: merging two meshes that pass check_connectivity gives a mesh that passes it with the same tolerance, exactly the free faces within the computed limit are linked, in both directions, their number is returned, and no coordinate changes.",
  "all pairs of meshes of doubles whose link numbers are whole, with up to 2^52 elements, where each face touches at most one face of the other mesh", "Universal over doubles; element numbers are stored as floats and shifted with rounding.", C+":HexaData.merge", C+":HexaData.offset_connectivity", C+":HexaData.check_connectivity")
p("C142", "generate_internal_bcs links free faces within the limit, each once, in double precision",
  "With the rounding of double-precision arithmetic, generate_internal_bcs links pairs of free faces of different elements whose computed distance is within the computed limit, each face at most once and in all fields, changes nothing else and returns the number of pairs times the number of fields; no two free faces within the limit remain; a valid mesh still passes check_connectivity; it raises ValueError exactly if a computed smallest edge is at most zero.",
  "all meshes of doubles with up to 2^53 elements, including NaN and infinities", "Universal over doubles; the test of the distance is not symmetric in its arguments.", T+":generate_internal_bcs", C+":HexaData.check_connectivity")
p("C143", "generate_internal_bcs only links faces that are near, in double precision",
  "With the rounding of double-precision arithmetic, generate_internal_bcs succeeds for all meshes without edges of length zero, links only faces whose centres are within the tolerance up to rounding, and leaves no two free faces that are within the tolerance with a margin for rounding.",
  "all meshes of doubles with finite coordinates", "Universal over doubles; fails for coordinates whose squares overflow or vanish.", T+":generate_internal_bcs")

p("C144", "exponential_refinement_parameter returns the ratio to within its tolerance",
  "In exact arithmetic, for n elements of which the first has the length l0 and that fill ltot with some ratio, the value returned differs from this ratio by at most tol.",
  "all lengths, numbers of elements and tolerances between 2^-1074 and 1", "Universal over reals; the number of steps is limited, and a short step does not mean a small error.", T+":exponential_refinement_parameter")

p("C145", "extrude copies coordinates exactly and keeps links in double precision",
  "In double precision, if linked faces of the 2D mesh have the same corners bit by bit and whole link numbers, the corners of the extruded elements are those of the 2D elements and the given z values, bit by bit; links are the copied and the vertical ones, linked faces have the same corners, and check_connectivity accepts the mesh with any tolerance that is not negative. This includes what gen_box builds.",
  "all valid 2D meshes of doubles, all z values (also NaN and infinities), end conditions other than E, up to 2^52 elements in the result", "Universal over all doubles, sizes and z values; link numbers are doubles and have to stay exact.", T+":extrude", C+":HexaData.offset_connectivity")
p("C146", "map2D keeps linked faces together in double precision",
  "In double precision map2D maps each vertex with the given function and leaves the conditions alone. If linked faces have the same corners bit by bit, they still do, so check_connectivity accepts the mapped mesh with any tolerance that is not negative, and straight edges of linked faces that are curved on both sides get the same midpoint bit by bit. This includes what gen_box builds, also after extruding the mapped mesh.",
  "all 2D meshes of doubles with four-corner elements and such links, all functions from two doubles to two doubles (also those that return NaN and infinities), both curvature switches", "Universal over all transformations, doubles and mesh sizes; a test picks a few smooth maps.", T+":map2D", T+":edge_mid", T+":extrude")
p("C147", "keep_elements renumbers exactly in double precision",
  "In double precision keep_elements of a validly connected mesh whose linked faces have the same corners bit by bit gives the chosen elements in increasing order; links between kept elements get exactly the new number of the neighbour, also if link numbers are not whole, links to removed elements become the given condition, and check_connectivity accepts the result with any tolerance that is not negative. This includes what gen_box builds.",
  "all such meshes of doubles with up to 2^53 elements, all lists of distinct element numbers in range, conditions other than E and P", "Universal over all doubles as link numbers and all subsets of elements; exactness of the subtraction is a statement about all doubles.", T+":keep_elements", C+":HexaData.check_connectivity")
p("C148", "The blocks of gen_circle are connected without gaps in double precision",
  "In double precision the square of gen_circle, and the quarter O whenever it is computed without an exception, have the links of build_connectivity between all neighbours, linked faces have the same corners bit by bit, no other face is linked, and check_connectivity accepts the blocks, and the quarters made by rotate_2d, with any tolerance that is not negative. The outer faces of the quarter O have the given conditions and curvature C with exactly the radius. Nothing is assumed of the functions of math, the curvature function and the spacing function, except that they are functions.",
  "all radii and ratios (also NaN and infinities), all numbers of elements up to 2^53 per block, all functions of math and of the user, conditions other than E and P", "Universal over all functions and all doubles; a test compares corners for a few circles only.", T+":gen_circle", T+":rotate_2d", C+":HexaData.check_connectivity")
p("C149", "The square of gen_circle is accurate in double precision and has no flat element",
  "In double precision every corner of the square of gen_circle is finite and within c/2^51 of its exact place, c being the computed length of the side; every element has a positive width and height, and the sides of the square are exactly at -c/2 and c/2.",
  "all computed lengths between 2^-900 and 2^900, all numbers of elements up to 2^53 in the square", "Universal over all doubles and numbers of elements; rounding of k/ns differs for each.", T+":gen_circle")
p("C150", "The square of gen_circle is symmetric in double precision",
  "In double precision opposite grid lines of the square of gen_circle are at opposite coordinates.",
  "all radii, ratios and numbers of elements", "The difference is in the last bits and only shows for particular numbers of elements.", T+":gen_circle")
p("C151", "The quarter O of gen_circle begins at the square and ends on the circle in double precision",
  "In double precision, for spacing and curvature functions that map 0 to 0 and 1 to 1, the corners at the beginning of the quarter O have an x coordinate within c/2^52 of c/2, where the side of the square is, and the corners at its end are within r/2^50 of the point of the circle at the angle of their ray.",
  "all radii up to 2^899 and computed sides from 2^-900 to twice the radius, all numbers of elements, all such functions, and functions of math that only satisfy rough bounds", "Universal over doubles, functions of the user and implementations of sine and cosine; a test compares a few circles with a tolerance.", T+":gen_circle")
p("C152", "edge_mid of an edge on a sphere is accurate in double precision",
  "In double precision the midpoint that edge_mid gives for an edge on a sphere is finite and within |R|/2^32 + X/2^50 in each coordinate of the point of the sphere in the direction of the middle of the chord, where R is the radius that edge_mid reads and X bounds the coordinates of the ends and of the centre; the element is not changed.",
  "all elements of doubles with such an edge, coordinates up to 2^198, radii of either sign from 2^-200 to 2^200, middles of chords that are at least 2^-200 and X/2^10 away from the centre, all libraries whose square and root are accurate", "Universal over all doubles in the range and all such libraries; five operations and two library calls round independently.", T+":edge_mid")

out = pathlib.Path(__file__).resolve().parent.parent / "properties.jsonl"
out.write_text("".join(json.dumps(x, ensure_ascii=False) + "\n" for x in P))
assert len({x["id"] for x in P}) == len(P)
print(len(P))
