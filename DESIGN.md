# Formal model of pymech (Lean 4 / Mathlib)

Source: `/repo` (eX-Mech/pymech, read as text only, never run). Lean project: `/verif/lean`.
The properties are in `properties.jsonl` (generated by `tools/props.py`); the status of each one and
the exact theorem names are in `MANIFEST.json` (generated by `tools/manifest.py`). Section 5 below repeats them.

## 1. Trusted base

* The Lean 4.33.0 kernel and Mathlib as installed. Axioms: `propext`, `Classical.choice`, `Quot.sound` only. There are no axioms of our
  own, no `sorry`, no `native_decide`, no `bv_decide`. `decide +kernel` is used for concrete examples and witnesses only; it is checked by the
  kernel. `axioms.txt` lists the axioms of each theorem named in the manifest (`tools/axioms.py`).
* That the Lean functions mirror the cited lines of Python. This was checked by reading; each definition cites its lines, and its comment
  says what was left out.
* The behaviour of Python and NumPy as described at the definitions in `Verif/Py.lean`, `Verif/IO/Bytes.lean`, `Verif/IO/Float.lean` and
  `Verif/IO/Text.lean` (indexing with negative numbers, `int()` and `float()` of strings, formatting, `struct`, `frombuffer`, `byteswap`,
  assignment to `U3` and `S8` items, rounding of floats).

Layout of `lean/Verif`: `Py`, `Core`, `IO`, `Mesh`, `Suite` hold the model, `Spec` the specifications (independent of the model functions),
`Lemmas` auxiliary facts, `Props` the theorems on properties with an example beside each one, `Samples` the concrete meshes.

## 2. How the code is modelled

* Every modelled Python function is a total Lean function with the same branches. Exceptions are values (`Py = Except PyErr`), so that a
  rejected input is visible in the result.
* Methods that change an object become functions from the old to the new state. Where the code holds a reference to its input and changes it,
  the changed input is part of the result (`edge_mid`, `map2D`, `extrude_mid`, `writerea`, `merge`).
* Arrays are a shape and a total function; an access outside the shape is an exception of the model, not a default value. Default values
  (`getD`, the total function outside the shape) are only used where the code cannot reach them, or the theorem says so.
* Mesh tools compute over an arbitrary ordered field (`ℚ` in examples, `ℝ` where square roots or angles matter). Rounding in mesh tools is
  *not* modelled, except in `gen_box` (C132–C134), whose definition only needs the operations and is also used with the doubles of `IO/FloatOps`, and in
  `check_connectivity` (C135, C136), which `Core/FloatConn` defines again for doubles with NaN and infinities, `rotate_2d` (C137, the same definition as
  for exact numbers) `edge_mid` (C138, C139, C152, defined again in `Mesh/FloatEdge`), and `merge`, `offset_connectivity`
  and `generate_internal_bcs` (C141–C143, defined again in `Core/FloatMerge`; the mesh left behind when `offset_connectivity` raises is not modelled) and `extrude` (C145, `Mesh/FloatExtrude`, with the same definitions for one element as for exact numbers) and `map2D` (C146, `Mesh/FloatMap`, the definition for exact numbers with `edge_mid` as a parameter) and `keep_elements` (C147, `Mesh/FloatKeep`, the definition for exact numbers with the update of a record as a parameter) and the blocks of `gen_circle` before they are merged (C148, `Mesh/FloatCircle`, in the order of operations of the code, with the functions of `math` and the two functions of the user as parameters); there `x ** 2`, `np.sqrt` and `x ** 0.5` are
  parameters (`Libm`), because they are left to the C library, and so are the cosine and sine of the angle. `lims` (no arithmetic, only comparisons) has the minimum and maximum of two numbers as parameters: those of an ordered field, or those of numpy for doubles with NaN (C140). Comparisons of distances are made on squares, and `near_iff_real` shows that this is the comparison of square roots. Square
  roots in `edge_mid`, `edge_circle` and the functions of `math` in `gen_circle` are parameters.
* The theorems on linking (`merge`, `generate_internal_bcs`) are proved for an arbitrary predicate "these faces touch", so that they do not
  depend on rounding.
* Files are lists of bytes, or characters for `.rea`. Floating-point numbers in files are bit patterns `Flt eb mb` of IEEE formats, with exact
  values in `ℚ` and rounding to nearest, ties to even, defined on them; conversion between precisions, printing with `%e` and parsing of decimal
  literals are computed exactly. Nothing about them is assumed.
* `logger` calls have no effect in the model. `int(x)` is truncation towards zero.

## 3. What is modelled

| Module of `/repo/src/pymech` | Functions | Model |
| --- | --- | --- |
| `core.py` | `DataLims`, `Elem` (`centroid`, `smallest_edge`, `face_center`), `HexaData` (`__init__`, `lims`, `check_connectivity`, `check_bcs_present`, `merge`, `get_points`, `update_ncurv`, `offset_connectivity`) | `Core/*` |
| `neksuite/field.py` | `Header`, `read_header`, `readnek`, `writenek` | `IO/Field` |
| `neksuite/mesh.py` | `readrea`, `writerea`, `readre2`, `writere2` | `IO/Rea`, `IO/ReaText`, `IO/Re2` |
| `neksuite/map.py` | `readma2` | `IO/Map` |
| `simsonsuite.py` | `readdns`, `readplane` | `IO/Simson`, `IO/SimsonFft` |
| `meshtools.py` | all functions | `Mesh/*` |
| `vtksuite.py` | `hexa2vtk` up to the arrays handed to VTK | `Suite/Vtk` |
| `vtksuite.py` | `writevtk`: the name of the file, as the last component of a path, with the `suffix` of Python up to 3.13 | `Suite/VtkName` |
| `dataset.py` | file name pattern, `meshgrid_to_dim`, `get_variables` | `Suite/Dataset` |
| `dataset.py` | `open_dataset` between `readnek` and `combine_by_coords`, with the check of dimensions made by `xr.Dataset` | `Suite/Open` |

Not modelled: the VTK and `xarray` libraries, plotting, the command line, log messages, warnings, `__repr__` of objects other than lists of points,
the operating system (a file is its content; opening a file empties it).

Simplifications, by part:

* *All files.* Texts are ASCII. A negative order or number of elements always gives `ValueError` (the code may raise something else). Memory is
  unlimited. `int32` arrays in meshes (`elmap`, face numbers) are unbounded integers; in files they have 32 bits.
* *Fields.* The result of `min`/`max` between equal floats of different sign (±0) is the first one. `skip_vars` is a set of names.
* *`.rea`.* `readrea` is given the text with the line ends translated; `readreaFile` does the translation (C129). The state of the mesh after `writerea` raised an exception is not modelled.
* *`.ma2`.* The arrays returned hold integers instead of doubles (the conversion is exact).
* *SIMSON.* The Fourier coefficients, the inverse transform and the coordinates are parameters; `readdnsR` has them in exact arithmetic, the
  transforms of `numpy.fft` by their documented formulas, and the value of a float as a parameter. One point in y gives NaN in the code, not in the model.
* *Mesh tools.* NaN and division by zero of NumPy scalars (which warn) are not modelled: division of Python floats raises. The elements in a
  list are distinct objects (no aliasing; `a.merge(a)` is no exception, because the elements of the argument are copied). Functions given by the user do not raise in `extrude_mid` and
  `extrude_refine`, and have no side effects in `map2D`. `extrude` without any z value and without conditions makes the number of elements negative; the model has 0. `extrude_mid` assumes that
  `nel` is the number of elements, and links are whole numbers in theorems on its links.
* *VTK.* Orders are positive. Offsets of cells are modelled, but no property is claimed about them (see below).
* *Dataset.* The decimal digits of Unicode and the rounding to eight decimals are parameters; the theorems hold for every monotone rounding,
  and `Spec.round8` is the exact one.

## 4. Disagreements between code and properties

In each case the negation is proved for the model on a concrete witness, and a theorem says when the property does hold.

* *C04* a double-precision field read into `float32` arrays is written with 4-byte data under an 8-byte header.
* *C10* skipping a whole group jumps over the data of all elements of the field, not of those in this file.
* *C14* `writenek` opens (and empties) the file before the word size is checked.
* *C15* a field without variables is written to a file that `readnek` refuses.
* *C17* `readre2` reads the numbers of curves and conditions in the byte order of the machine; a foreign mesh loses all of them.
* *C18* from 10^8 elements on the columns of the `.re2` header merge.
* *C21* `nbc = 0` is read back as 1.
* *C23* `writerea` turns empty conditions of the mesh into `'E'`.
* *C24* `readrea` reads two characters of a condition.
* *C25* `writerea` announces `ncurv` curves but writes those it finds.
* *C26* the `.rea` file of a mesh without fields has no title line for conditions and cannot be read.
* *C29* `readplane` raises `TypeError` for one and three dimensions (`nt1` is a float).
* *C30* `readdns` computes the slot of the planes with a wrong formula: one plane is lost.
* *C31* `readdns` assigns raw bytes to floats when there are passive scalars.
* *C33* `lims` of a mesh with one element (or none) raises `TypeError`.
* *C36* `smallest_edge` measures diagonals instead of the edges in y.
* *C50* `extrude(internal_bcs=False)` only cleans the first layer.
* *C51* `extrude` and `keep_elements` leave `elmap` alone.
* *C59* `rotate_2d` ignores its centre.
* *C62* `gen_box` accepts periodicity on one side.
* *C64* `map2D` and `gen_circle` leave `ncurv` stale.
* *C65* `gen_circle` divides by zero with one layer of the O grid and the default spacing.
* *C68, C70, C84* `edge_mid` and `edge_circle` write into the element through a view; `map2D` and `extrude_mid` spoil their input, and
  `extrude_mid` its own result from the second block on.
* *C72* `extrude_mid` with no layers raises `IndexError`.
* *C75* `extrude_refine` calls `len(fun)` before the test for `None`, and indexes `funpar` even if it is `None`.
* *C77* `extrude_mid` reads character 4 of the curvature type instead of parameter 4 of the curvature: `IndexError` for spheres.
* *C78* the file name pattern is not anchored at the end.
* *C83* `hexa2vtk` stores coordinates only if `var[0]` is 3: all points of 2D fields are at the origin.
* *C86* the test of `extrude_refine` and that of `extrude_mid` treat zeros differently when the function is negated.
* *C88* `hexa2vtk` has eight (four) rows per cell instead of one per grid point.
* *C89* coordinates closer than the rounding to eight digits are merged.
* *C91* `merge` connects the side walls of stacked boxes whose elements are more than a hundred times wider than high, a consequence of C36.
* *C93* `readdns` calls `irfft2` with the axes in the wrong order for coefficients of which half are given in x: waves along x are halved, and
  waves with a negative spanwise wavenumber are lost.
* *C96* `writevtk` replaces what follows the last dot: `channel0.f00001` and `channel0.f00002` are both written to `channel0.vtp`.
* *C97* `edge_mid` takes the radius of spheres from `curv[4]`; Nek5000 has it in the fourth parameter, `curv[3]` (`genxyz.f` of Nek5000, which is
  not in the repository).
* *C99* `readre2` strips blanks but not zero bytes from names: `"W  "` followed by zero bytes becomes the condition `"W  "` instead of `"W"`. That other
  programs leave such bytes is known for curved edges (comment in mesh.py:699–701), where only the first byte is used.
* *C101* the denominator in `err_prime` stops at the quadratic term while the sum it stands for has a cubic term from four elements on: at ratio 2
  and four elements it is 17/14, the derivative is 17/15. Only the speed of convergence suffers (`C101_direction`).
* *C102* the secant iteration of `gen_circle` starts with lengths 1 and 0 and tests only the second: if 1 is the solution, the first secant step
  is not taken and length 0 goes into the logarithm of the spacing (`ValueError`).
* *C103* `open_dataset` sorts the coordinates of an element but not its data, and only the number of different coordinates is checked. A cube turned
  by 90 degrees, or one in which x decreases, is opened with wrong labels. Files without coordinates are refused.

- C63: `merge` compares the distance of face centres with a hundredth of the *smallest measured edge*, and `smallest_edge` measures no edge along
  the circle in elements with two points per direction (it takes the two radial edges and the two diagonals). In a ring of one layer with
  `ns >= 50 pi / (1 - s)` elements per side, the wall faces on both sides of a corner of the square are therefore taken for the same face and
  connected with each other; the condition given for the circle is lost (`C63_thin`, witness `C63_false`). `C106` lists conditions under which this
  does not happen.

- C109: `extrude_refine` gives the dummy condition 'con' to all sides which are cut when the plane mesh is taken apart and relies on `merge` to
  replace it. A periodic side whose partner belongs to another part is cut too, but `merge` only connects faces at the same place, so that the
  faces above such sides keep the condition 'con' (`C109_false`: a periodic row of three squares refined in its direction). Without such sides
  nothing is left (`C109_no_dummy_partial`).
- C112: `writenek` writes a header with `nb_elems_file = nel`, but only the elements named by `elmap`. For one file of a
  multi-file field, as `readnek` returns it, the result is too short to be read (`C112_unreadable` for every part in 2D and
  for every part in 3D whose blocks are not tiny; `C112_false` with a concrete file). For complete files see `C112_partial`.

- C113: `readre2` always makes one field of boundary conditions, so that a mesh with `nbc = 0` is written with an empty field
  after it was read: the second file has eight more bytes (`C113_false`). With `nbc ≥ 1` the files are equal (`C113_partial`).
- C114: `readrea` takes an internal condition whose first parameter is zero for an empty one. `writerea` gives it zeros and the indices of its
  face, so other parameters it had are not in the second file (`C114_false`). With a million elements or more the parameters have twelve digits;
  the number `202402253308 · 2^-1074` is then written as `1.00000000000e-312`, and after reading as `9.99999999998e-313` (`C114_tiny`). With the
  seven digits of all other numbers this does not happen (`fmtE_six`), and files of all other meshes are reproduced (`C114_partial`).
- C115: `writere2` checks `lr1` and `var[0]` before the file is opened, but not the arrays of the elements or the rows of boundary
  conditions. If one of them is too small, `IndexError` is raised while the file is written and what was written remains
  (`C115_false`). It may be a valid file for `readre2` (`C115_readable`: with `nbc = 2` but one row, a mesh with one field is read). What is left behind is known exactly
  (`C115_vertices`, `C115_rows`): the elements before the failing one, or the complete file of a mesh with the fields that exist.
- C117: `writerea` opens the file before it looks at the mesh. If `elem` or the arrays of an element are too small, `IndexError` is
  raised and the lines before it remain (`C117_false`: without rows of conditions the file ends after the title of the first field).
- C118: `writenek` opens the file before it looks at the field. If the element map names an element that does not exist, or an array
  has fewer components than announced by `var`, `IndexError` is raised and header, element map and the blocks before it remain
  (`C118_false`). Such a file is at least never taken for a complete one: `readnek` refuses it (`C118_refused`).
- C119: `readrea` counts the titles that announce boundary conditions, leaving out those with the word `NO`, but then takes the line after
  `BOUNDARY CONDITIONS` for the title of the first field. In a file for heat conduction, where `NO FLUID BOUNDARY CONDITIONS` comes
  before `THERMAL BOUNDARY CONDITIONS`, the second title is therefore read as a condition and `ValueError` is raised (`C119_false`).
  If such titles come last then every well-formed file is read as it should (`C119_partial`), whatever program it comes from.
- C120: a `.re2` file does not say how many fields it has; `readre2` reads fields until nothing is left. A file that lost everything
  after the curved sides, or after one of its fields, is read without complaint as a mesh with fewer fields, or with empty conditions
  (`C120_false`: this happens to every file that has conditions, for every number of fields that remain). Every other truncation is
  refused (`C120_partial`, `C120_size`).
- C121: `readrea` counts the titles of the fields and does not look for the rest of the file. A file that ends before the title of a field
  is read as a mesh without that field and the following ones (`C121_false`: every file that `writerea` writes for a mesh with conditions
  can be cut this way, for every number of remaining fields). A file that ends within its last number is read with another number
  (`C121_number`: `2.500000E-01` becomes `2.5`). What can be read from a cut file at all is described by `C121_partial` for every text and by
  `C121_written_partial` for written files: elements, coordinates, curved edges and conditions are those of the complete file, with at most
  the last number of the last condition different.
* C124: `rotate_2d` moves the midpoints of `'m'` edges but not the centres of the spheres of `'s'` edges (`C124_false`: an edge on the sphere
  around (4, 4, 0), turned by 180 degrees, still has that centre, and `edge_mid` returns a point that is not the rotated one).
* C130: `generate_internal_bcs` takes a face for free if its first field has no condition, and writes `'E'` into all fields. A condition that the face
  has in another field is lost; if it is one of two periodic faces, the other one points to an internal face afterwards and `check_connectivity` fails.
* C133, C134: `gen_box` computes `xmin + lx*i/nx`. With rounding the last point need not be `xmax` (three elements from 0 to 0.1 end one double
  after 0.1), and neighbouring points can coincide (two elements from 1 to the next double).
* C136: `check_connectivity` compares `sqrt` of sums of squares. For coordinates around 1e200 the squares overflow and `inf > inf` is false; around
  1e-200 they vanish and `0 > 0` is false; with a NaN in a corner of the face the comparison is false as well. In each case faces any distance apart
  pass.
* C139: `edge_mid` computes `(R**2 - dx**2/4 - dy**2/4) ** 0.5`. For half a circle the exact value under the root is 0, the computed one can be
  negative, and the midpoint becomes NaN (`C139_false`: radius 94906409, ends ±(64048041, 70036240)).
* C143: `generate_internal_bcs` compares `dist <= tol * min(...)`. For coordinates around 1e200 both sides are infinite and any two free faces of
  different elements are linked; for edges around 1e-200 the squares vanish and a mesh without zero edges is refused with "Detected an edge with
  zero length" (`C143_false`). A smallest edge that is NaN passes the check `scales[iel] <= 0.0` (C142_raises).
* C144: `exponential_refinement_parameter` promises an "error tolerance on alpha". For more than three elements `err_prime` is not the derivative (C101), and
  below 1 it grows with the number of elements: for a million of them that fill twice the first one, the steps are so short that after the 10000 steps
  allowed the result is still above 0.72, the ratio being about 0.5 (`C144_false`). Nothing is reported.
* C150: the grid lines of the square of `gen_circle` are `c * (k / ns - 0.5)`. `k / ns` is rounded, and 1/3 and 2/3 differently, so that with three elements the
  inner lines of the square are not symmetric about the centre (`C150_false`); the difference is below `c / 2^50` (`C150_partial`).

Observations on the code that are not part of a property:

* `readdns` reads two records for the flow types 4 and 5 (the second test should perhaps exclude them); C92 follows the code here.
* `check_connectivity` does not check the range of the number of the face in links.
* `merge` connects within a relative tolerance of 1e-2 while `check_connectivity` accepts 1e-3 by default. A face with `'P'` that touches a face
  with another condition leaves a `'P'` without partner; several touching faces break reciprocity. The theorems have hypotheses that exclude
  these cases.
* `extrude_mid` accepts elements whose high corners are opposite; the result does not fit (`C74_saddle`). Without `internal_bcs` conditions
  of the plane mesh appear on internal faces (`C85_no_internal`). Indices of the element and face on side faces are not updated.
* `extrude` with a single z value returns a mesh that says it has no element, but the elements of the plane mesh are still in its list
  (`extrude_single`, and `extrude_single_ends` for the records they have); without a z value it raises `IndexError` (`extrude_rejects_short`).
* `hexa2vtk` passes offsets `nvert * i` where cells start at `(nvert + 1) * i`; recent VTK ignores them.
* `map2D` maps the first 2×2 points of each element only.

On the mutation tests:

* `seeded/LOG.jsonl` lists what failed to build after each edit of the model. The names come from the line of the error. Until the entries on
  `sphereMidF` with claim C152, an error reported at a doc comment was counted for the declaration before it, so in older entries a name can be that of
  the neighbour of the theorem that failed; that the build failed is right in any case. A failure can also be a timeout of the proof
  instead of an unsolved goal (so for `c.x - d.x * radius / n` in `sphereMidF`), which shows that the proof does not go through, not that the theorem is false.

## 5. State per property

The column "how" gives the note of the manifest. A property that is false for the code is `partial`.

<!-- table: python3 tools/design.py -->

| Property | State | Theorems (namespace `Pymech`) | How |
| --- | --- | --- | --- |
| C01 writenek then readnek restores a double-precision field | proved | `C01_roundtrip`, `C01_time_exact` | writer and reader may run on machines of different byte order |
| C02 Single-precision round trip loses exactly one rounding and is then stable | proved | `C02_rounded`, `C02_stable` |  |
| C03 Byte order of the file never changes what is read | proved | `C03_endian`, `C03_unknown` |  |
| C04 A field read with any dtype can be written and read back | partial | `C04_unreadable`, `C04_false`, `C04_partial` | false in the code: a double-precision file read into float32 arrays is written with 4-byte data under an 8-byte header; holds if the array type fits the word size |
| C05 Exact size and layout of the file written by writenek | proved | `C05_layout`, `C05_size` |  |
| C06 Header text survives formatting and parsing | proved | `C06_header`, `C06_header_exact` |  |
| C07 Variable string and variable counts are inverse to each other | proved | `C07_variables` |  |
| C08 Malformed headers are rejected, never misread | proved | `C08_short`, `C08_wordsize`, `C08_no_variables`, `C08_sound`, `C08_derived` |  |
| C09 skip_vars only omits the named variables | proved | `C09_skip_vars` |  |
| C10 skip_vars is also safe on one part of a multi-file field | partial | `C10_false`, `C10_partial` | false in the code: skipping a whole group jumps over the data of all elements, not of those in the file; holds if no group is skipped as a whole |
| C11 A zero in the element map only changes the order, never loses data | proved | `C11_blocks`, `C11_zero`, `C11_map`, `C11_raises`, `C11_negative_count` |  |
| C12 A truncated field file is never read as a complete one | proved | `C12_truncated`, `C12_any` | C12_any: files of any origin, with skipped variables |
| C13 Byte-order tag is recognised exactly | proved | `C13_tag`, `C13_tag_error`, `C13_written` |  |
| C14 A rejected write leaves an existing file intact | partial | `C14_writenek_false`, `C14_writenek_nonempty`, `C14_writere2` | holds for writere2; false in the code for writenek: the file is opened (and emptied) before the word size is checked |
| C15 A field without any variable is refused or survives the round trip | partial | `C15_false` | false in the code: a field without variables is written to a file that cannot be read; with a variable the round trip is C01 |
| C16 writere2 then readre2 restores a mesh (native byte order) | proved | `C16` | the number of fields is not restricted |
| C17 Byte order does not affect .re2 meshes | partial | `C17_lost`, `C17_not_restored`, `C17_partial` | false in the code: the counts are read in the byte order of the machine; every mesh with curved edges or boundary conditions loses them; holds for coordinates alone |
| C18 .re2 header supports every element count that fits its columns | partial | `C18_false`, `C18_partial` | false in the code: with nine digits the columns merge; holds below 10^8 elements |
| C19 writere2 refuses meshes that are not plain vertex meshes | proved | `C19` |  |
| C20 .re2 curve count is the true one whatever the metadata says | proved | `C20_attribute`, `C20_file`, `C20_read` | reading: byte order of the machine, or no curves at all |
| C21 Number of BC fields survives the .re2 round trip | partial | `C21_false`, `C21_partial` | false in the code for nbc = 0; holds for at least one field |
| C22 writerea then readrea restores a mesh | proved | `C22`, `C22_exact`, `C22_lines` | up to the digits printed, and exactly for at most seven digits; between 10^3 and 10^6 elements the indices stored are those of element and face |
| C23 Writing a mesh does not modify it | partial | `C23_false`, `C23_partial` | false in the code: writerea turns empty conditions of the mesh into internal ones; holds exactly if there are none |
| C24 Three-letter boundary conditions survive the .rea round trip | partial | `C24_false`, `C24_not_restored` | false in the code: readrea never returns more than two characters |
| C25 .rea round trip does not depend on the ncurv metadata | partial | `C25_few`, `C25_not_restored`, `C25_many`, `C25_partial` | false in the code: the mesh is restored exactly if the attribute is the number of curved edges |
| C26 A mesh without BC fields survives the .rea round trip | partial | `C26_false`, `C26_empty` | false in the code: the file of a mesh without fields cannot be read |
| C27 readma2 decodes every map file | proved | `C27`, `C27_short` |  |
| C28 readplane decodes every 2D plane file | proved | `C28` |  |
| C29 readplane also reads 1D and 3D plane files | partial | `C29_false`, `C29_type` | false in the code: TypeError for every file with one or three dimensions |
| C30 readdns stores every spanwise Fourier plane | partial | `C30_false`, `C30_partial` | false in the code from four points on: one plane is lost and one slot is not set |
| C31 readdns supports passive scalars | partial | `C31_false` | false in the code: files with scalars raise ValueError |
| C32 lims are the exact extrema over all elements | proved | `lims_extrema`, `lims_order`, `npZip_broadcast` |  |
| C33 lims works on every non-empty mesh | partial | `lims_single`, `lims_not_total`, `lims_defined_partial` | false in the code: one element raises TypeError; holds for two or more |
| C34 lims objects are immutable | proved | `lims_immutable`, `lims_init`, `setattr_iff` |  |
| C35 face_center is the mean of the four corners of the face | proved | `face_center_eq_mean`, `face_center_2d`, `face_center_invalid` |  |
| C36 smallest_edge is the length of the shortest edge | partial | `smallest_edge_wrong`, `smallest_edge_le_partial`, `smallest_edge_box2d_partial`, `smallest_edge_box3d_partial` | false in the code: diagonals are measured instead of the edges in y; holds for boxes exactly if the side in y is not shorter than all others |
| C37 check_connectivity succeeds exactly on mutually linked meshes | proved | `check_connectivity_iff`, `check_connectivity_raises_iff`, `near_iff_real` | the partner face is only required to be one of 0..5 by the code |
| C38 check_bcs_present succeeds exactly if no condition is missing | proved | `check_bcs_present_iff` |  |
| C39 merge concatenates the meshes | proved | `merge_concat`, `merge_elmap`, `merge_rejects` |  |
| C40 merge preserves valid connectivity | proved | `merge_valid` |  |
| C41 merge result passes check_connectivity | proved | `merge_check` |  |
| C42 merge counts the connections it makes | proved | `merge_count`, `merge_ignore_all` |  |
| C43 offset_connectivity shifts exactly the links past the threshold | proved | `offset_connectivity_spec`, `offset_connectivity_link`, `offset_connectivity_add`, `offset_connectivity_cancel` |  |
| C44 update_ncurv counts the curved edges | proved | `update_ncurv_spec`, `update_ncurv_idem` |  |
| C45 get_points lists every point once in storage order | proved | `get_points_spec`, `get_points_fails`, `get_points_missing` |  |
| C46 extrude builds the stacked geometry | proved | `extrude_geometry` | for at least two z values |
| C47 extrude preserves valid connectivity | proved | `extrude_valid`, `extrude_records` |  |
| C48 extruded mesh passes check_connectivity | proved | `extrude_checks` |  |
| C49 extrude refuses unsuitable input | proved | `extrude_rejects`, `extrude_rejects_short` | extrude_rejects_short: the other exception, also for an empty list of z values |
| C50 extrude(internal_bcs=False) leaves no internal condition | partial | `extrude_keeps_internal`, `extrude_no_internal_false`, `extrude_no_internal_partial` | false in the code: only the first layer is cleaned; holds for one layer or a mesh without internal conditions |
| C51 Mesh tools keep the element map consistent | partial | `new_elmap`, `merge_elmap`, `gen_box_elmap`, `rotate_2d_elmap`, `extrude_elmap_partial`, `keep_elements_elmap_partial`, `elmap_inconsistent` | false in the code: extrude and keep_elements leave elmap alone |
| C52 delete_internal_bcs removes all and only internal conditions | proved | `delete_internal_bcs_spec`, `delete_internal_bcs_idem`, `delete_valid` |  |
| C53 generate_internal_bcs only adds mutual links between close, free faces | proved | `generate_internal_bcs_spec`, `Spec.ConnectedPairs.keeps`, `generate_internal_bcs_valid`, `generate_internal_bcs_valid_single` |  |
| C54 generate_internal_bcs leaves no close free pair | proved | `generate_internal_bcs_complete` |  |
| C55 generate_internal_bcs rejects degenerate elements | proved | `generate_internal_bcs_raises`, `generate_internal_bcs_no_bc`, `generate_ok` |  |
| C56 keep_elements keeps exactly the requested elements | proved | `keep_elements_spec`, `keep_elements_kept`, `keep_elements_rejects` |  |
| C57 keep_elements preserves valid connectivity | proved | `keep_elements_valid`, `KeptRec_points` |  |
| C58 rotate_2d is a rotation | proved | `rotate_2d_spec`, `rotate_2d_isometry`, `rotate_2d_bcs`, `rotate_2d_check`, `rotate_2d_add`, `rotate_2d_zero` |  |
| C59 rotate_2d rotates around the given centre | partial | `rotate_2d_centre_wrong`, `rotate_2d_centre_ignored`, `rotate_2d_centre_partial`, `rotate_2d_centre_iff` | false in the code: the centre is ignored; holds exactly for the centre (0, 0) or a trivial angle |
| C60 gen_box tiles the rectangle | proved | `gen_box_geometry`, `subdiv_bounds`, `gen_box_tiles`, `gen_box_rejects`, `gen_box_fields`, `gen_box_short` |  |
| C61 gen_box is validly connected and passes its own checks | proved | `gen_box_valid`, `gen_box_checks`, `gen_box_sides` |  |
| C62 gen_box refuses one-sided periodicity | partial | `gen_box_one_sided`, `gen_box_one_sided_invalid`, `gen_box_one_sided_partial`, `gen_box_check_iff_partial` | false in the code: one-sided periodicity is accepted and the mesh is invalid; check_connectivity accepts the result exactly if there is none |
| C63 gen_circle has the documented size and boundary | partial | `C63`, `C63_bc_partial`, `C63_radius`, `C63_inner`, `C63_quarters`, `C63_thin`, `C63_false` | sizes, arcs and geometry for all arguments; false for the conditions: with internal_bcs, one layer and many elements per side, curved faces next to a corner of the square become internal (C63_thin for all such circles, C63_false a witness); kept unless the face touches a face of another block within the tolerance of merge, and always under the hypotheses of C106 |
| C64 Mesh generators keep the curve count metadata accurate | partial | `C64_false`, `C64_circle`, `C64_map_partial`, `C64_keep`, `C64_extrude` | false in the code for map2D and gen_circle, whose ncurv is stale or 0; holds for keep_elements and extrude |
| C65 gen_circle works with a single O-grid layer | partial | `C65_false`, `refine_one`, `C65_partial` | false in the code: the default spacing always raises with one layer; holds if a spacing function is given |
| C66 exponential_refinement_parameter solves the geometric sum | proved | `C66_zero`, `C66_near`, `C66_near_exact`, `C66_fixed`, `C66_one`, `C66_iterates` | exact arithmetic; near 1 the error function uses a truncated sum, exact for up to four elements |
| C67 map2D maps the vertices and keeps the topology | proved | `C67`, `C67_valid`, `C67_mid`, `C67_rejects` | midpoints as given by edge_mid (C69) |
| C68 map2D does not modify its input | partial | `C68_false`, `map2D_input`, `C68_partial` | false in the code: the curvature of arcs in the input is overwritten |
| C69 edge_mid returns the midpoint of the edge | proved | `C69_straight`, `C69_mid`, `C69_arc` | arcs over the reals |
| C70 edge_mid and edge_circle do not modify the element | partial | `C70_false`, `C70_arc`, `C70_circle`, `C70_partial` | false in the code: for arcs edge_mid, and always edge_circle, overwrite the stored curvature |
| C71 edge_circle returns the circle through three points | proved | `C71`, `C71_flat` | over the reals |
| C72 extrude_mid makes six elements per column and four layers | partial | `C72_partial`, `C72_layers`, `C72_rejects`, `C72_false` | false in the code for nz = 0 (a multiple of 4), which raises IndexError instead of returning no elements; proved for nz > 0 and edges that are not of type 's' (C77) |
| C73 extrude_mid builds valid connectivity | proved | `C73`, `C73_geometry` | with internal_bcs, for elements whose high corners form a side and end conditions other than 'E'; links through the side faces only, as in the statement |
| C74 extrude_mid fills the slab | proved | `C74_inner`, `C74_next`, `C74_section`, `C74_tiling`, `C74_saddle` | for elements whose high corners form a side; with two opposite high corners (a saddle) the code accepts the element and the result does not fit (C74_saddle) |
| C75 extrude_refine defaults work as documented | partial | `C75_fun_false`, `C75_funpar_false`, `C75_partial` | false in the code: fun=None raises TypeError at len(fun), funpar=None at funpar[k]; an empty list of functions gives the simple extrusion |
| C76 extrude_refine partitions the mesh | proved | `C76`, `C76_sort`, `C76_returns`, `refine_structure` | count and structure for every successful call with funpar given (without it there is none, C75); C76_returns: internal_bcs=False always succeeds under RefineArgs |
| C77 extrude_mid handles spherical curvature | partial | `C77_false`, `midElem_sphere` | false in the code: IndexError for every such mesh |
| C78 can_open_nek_dataset accepts exactly the Nek extensions | partial | `C78_false`, `C78_partial`, `C78_accepts`, `Re.run_iff` | false in the code: the match is not anchored at the end (a.fld.png, six digits, directories) and newlines are excluded; exact characterization and acceptance of the intended names proved |
| C79 meshgrid_to_dim inverts meshgrid | proved | `C79`, `C79_box`, `uniqueIdx_spec`, `round8_mono` | for every monotone rounding, in particular the exact one |
| C80 Dataset variables do not collide | proved | `C80`, `dec02_inj` |  |
| C81 hexa2vtk numbers points without collision and in bounds | proved | `C81`, `vtk_spec`, `vtk_no_points` | coordinates, velocity, pressure, temperature and scalars, with and without downsample |
| C82 hexa2vtk cells are the sub-cells of the elements | proved | `C82`, `vtk_spec` | up to the arrays handed to VTK |
| C83 hexa2vtk also works for 2D fields | partial | `C83_false`, `C83_zero`, `C83_partial` | false in the code: with var[0] = 2, as in 2D files, all points are at the origin and all cells degenerate; holds if var[0] is 3 |
| C84 extrude_mid leaves the plane mesh as it was | partial | `C84_partial`, `C84_false` | false in the code if an edge is an arc: its radius is overwritten and the second block is made with the wrong one; holds without arcs |
| C85 extrude_mid puts conditions on the right faces | proved | `C85`, `C85_no_internal` | C85_no_internal: without internal_bcs conditions of the plane mesh appear inside columns |
| C86 The two classifications of extrude_refine agree | partial | `C86_false`, `C86_partial` | false in the code: for k < imesh_high a function vanishing on a grid line leads to ValueError; holds if it vanishes at no corner or k >= imesh_high |
| C87 The check of the number of layers in extrude_refine suffices | proved | `strides_divide`, `C76_returns` |  |
| C88 hexa2vtk shows no points but those of the field | partial | `C88_false`, `C88_partial` | false in the code: the arrays have one row per corner of each cell, and the rows beyond the grid points are points at the origin; holds exactly for two points per direction |
| C89 Coordinates of box elements are not lost | partial | `C89_false`, `C89_partial` | false in the code: coordinates closer than the rounding to 8 digits are merged; holds for spacings above 1e-8 |
| C90 generate_internal_bcs and delete_internal_bcs turn the two kinds of box into each other | proved | `gen_box_generate`, `gen_box_delete` |  |
| C91 Merging stacked boxes connects their common side and nothing else | partial | `gen_box_stack_false`, `gen_box_stack_partial` | false in the code: the side walls of flat elements are connected, because smallest_edge ignores the height; holds if elements are higher than the tolerance times their width |
| C92 readdns decodes the header and the coefficients of every velocity file | proved | `C92` |  |
| C93 readdns returns the velocity field whose Fourier coefficients are in the file | partial | `C93_partial`, `C93_false`, `C93_lost`, `dns_fields` | false in the code: irfft2 takes the spanwise direction for the one with half of the coefficients; waves along x come out halved and those with negative spanwise wavenumber are lost; dns_fields says what is returned, C93_partial when it is right |
| C94 readdns returns the grid of the simulation | proved | `C94` |  |
| C95 writevtk names the file after the given name, with the extension .vtp | proved | `C95`, `C95_empty` |  |
| C96 writevtk writes different fields to different files | partial | `C96_false`, `C96_partial` | false in the code: with_suffix removes the number of the time step, so that all files of a series are written to the same name; holds for names without extension or with the same extension |
| C97 edge_mid returns the middle of an arc on a sphere | partial | `C97_false`, `C97_partial`, `C97_point` | false in the code: the radius is taken from the fifth parameter instead of the fourth; the centre is returned when the fifth is zero; holds if the radius is stored there, too. That Nek5000 has the radius in the fourth parameter is knowledge about Nek5000, not part of the repository |
| C98 writere2 writes the layout of .re2 files | proved | `C98` |  |
| C99 readre2 reads every well-formed .re2 file in the native byte order | partial | `C99_partial`, `C99_false` | false in the code for names filled up with blanks to three characters and zero bytes after that: the blanks stay in the name; holds for names filled up with white space only or zero bytes only |
| C100 writerea writes the layout of .rea files | proved | `C100` |  |
| C101 exponential_refinement_parameter uses the derivative of its error function | partial | `C101_partial`, `C101_false`, `C101_near`, `C101_direction` | false in the code for more than three elements: the polynomial used is not the derivative; holds for up to three elements and near 1; all steps go in the right direction anyway |
| C102 The default layers of gen_circle start at the square, end on the circle, and begin with the size of its elements | partial | `C102_partial`, `C102_false`, `C102_secant` | false in the code if the length 1, where the search starts, is the solution: length 0 is used instead and ValueError is raised; holds if the function exists, for exact solutions of the two equations |
| C103 open_dataset accepts box meshes only and labels the data by their coordinates | partial | `C103_partial`, `C103_false`, `C103_accepts`, `C103_no_coordinates` | false in the code: the coordinates are sorted, the data are not, and only their number is checked; rotated and mirrored elements are accepted with wrong labels; which elements are accepted and which are labelled correctly is proved exactly |
| C104 centroid returns the mean of the points of an element | proved | `C104`, `C104_between`, `C104_symmetric` |  |
| C105 Meshes merged one after the other are connected exactly where they touch | proved | `C105`, `C105_check` |  |
| C106 gen_circle connects all faces except those on the circle | proved | `C106`, `C106_sizes`, `C106_general` | over the real numbers, with a bound of the elongation of the elements; C106_sizes shows that the bound holds for up to 14 s elements per side |
| C107 extrude_mid keeps the mesh conforming: edges that coincide have the same curve | proved | `C107`, `C107_edges` | for elements whose high corners form a side; in several blocks without arcs (with arcs later blocks are wrong: C84) |
| C108 edge_circle and edge_mid undo each other, and rings are refined by concentric arcs | proved | `C108_radius`, `C108_mid`, `C108_ring`, `C108_extrude` | over the real numbers; C108_extrude for the first block of four layers (later ones: C84) |
| C109 extrude_refine with internal_bcs connects the parts and leaves no dummy condition | partial | `C109_partial`, `C109_no_dummy_partial`, `C109_false` | false in the code if a periodic side and its partner belong to different parts: their faces keep the condition 'con'; everything else is proved, and the whole claim without such sides |
| C110 Numbers in headers are read exactly as written | proved | `C110_header`, `C110_refused`, `C110_int`, `C110_float`, `nearest_ofRat`, `nearest_unique`, `decWord_unique`, `splitT_iff` | what int and float do with a word is a definition of the model (Verif/IO/Text.lean), here shown to agree with an independent grammar of numerals |
| C111 A field file that is read and written again keeps its numbers byte for byte | proved | `C111_double`, `C111_single`, `C111_widened` |  |
| C112 A part of a multi-file field that was read can be written and read again | partial | `C112_false`, `C112_unreadable`, `C112_partial` | false in the code: the header written for a part announces all elements but only those of the element map follow, so the file is too short; holds if the file contained all elements |
| C113 A .re2 file that is read and written again is reproduced byte for byte | partial | `C113_partial`, `C113_false`, `C113_stable` | false in the code for meshes without fields of boundary conditions: the second file is eight bytes longer; holds with at least one field, and from the second file on |
| C114 A .rea file that is read and written again is reproduced | partial | `C114_partial`, `C114_false`, `C114_tiny` | false in the code: parameters of an internal condition are lost if the first is zero, and from a million elements on some subnormal parameters change; holds otherwise, for all coordinates |
| C115 writere2 leaves no incomplete file | partial | `C115_partial`, `C115_false`, `C115_vertices`, `C115_rows`, `C115_readable` | false in the code: the file is opened before the sizes of the arrays are met; holds if the arrays of all elements hold what is announced (exact condition) |
| C116 Map files are never misread | proved | `C116` |  |
| C117 writerea leaves no incomplete file | partial | `C117_partial`, `C117_false` | false in the code: the file is opened first; holds if lists and arrays hold what is announced (exact condition) |
| C118 writenek leaves no incomplete file | partial | `C118_partial`, `C118_false`, `C118_refused` | false in the code: the file is opened first; holds exactly if the elements in the element map hold what is announced; files left behind because of missing components are refused by readnek |
| C119 readrea reads every well-formed .rea file | partial | `C119_partial`, `C119_false` | false in the code: if a title says that a field has no conditions before another field lists its own then ValueError is raised; holds if such titles come last; conditions have names of at most two letters (see C24), no edge is listed twice |
| C120 A truncated .re2 file is never read as a complete one | partial | `C120_partial`, `C120_size`, `C120_read`, `C120_false`, `C120_written_partial` | false in the code: the number of fields is not in the file, so a file that ends exactly after the curved sides or after a field is read as a mesh with fewer fields; every other truncation is refused |
| C121 A truncated .rea file is never read as a complete one | partial | `C121_partial`, `C121_written_partial`, `C121_false`, `C121_number` | false in the code: the fields are counted by their titles, so a file that ends before a title is read with fewer fields, and a last number that lost digits or its exponent is read as another number; nothing else is read wrongly from a written file that was cut |
| C122 A truncated SIMSON file is never read as a complete one | proved | `C122_plane`, `C122_plane_exact`, `C122_dns`, `C122_dns_refused` | C122_plane and C122_dns for arbitrary bytes; C122_plane_exact and C122_dns_refused say which well-formed files are refused (velocity files without scalars, see C31) |
| C123 rotate_2d commutes with the other mesh tools | proved | `C123_merge`, `C123_generate`, `C123_delete`, `C123_keep`, `C123_extrude` | equality of the whole results, including exceptions |
| C124 rotate_2d also rotates the curved edges | partial | `C124_partial`, `C124_false` | false in the code for edges on spheres: rotate_2d does not move the centre; holds for straight edges, arcs, midpoints, and spheres with their centre on the axis |
| C125 map2D respects the composition of transformations | proved | `C125`, `C125_id`, `C125_inverse` |  |
| C126 keep_elements twice is keep_elements once | proved | `C126`, `C126_all` |  |
| C127 keep_elements undoes merge | proved | `C127` |  |
| C128 lims of the results of the mesh tools | proved | `C128_merge`, `C128_keep`, `C128_extrude` |  |
| C129 Line ends of .rea files do not matter | proved | `C129`, `C129_plain`, `C129_truncated`, `C129_written`, `C129_roundtrip` |  |
| C130 generate_internal_bcs overwrites no condition of any field | partial | `C130_partial`, `C130_lost`, `C130_false`, `C130_invalid` | false in the code: only the first field is looked at, so conditions of other fields on faces without one in the first field are overwritten, and a valid mesh can become invalid; holds if such faces have no condition in the other fields; C130_lost says what is lost |
| C131 What the SIMSON readers return is in the file | proved | `C131`, `C131_none`, `C131_plane` | For every list of bytes. The transform, the coefficients and the coordinates are parameters. |
| C132 gen_box is accurate in double precision | proved | `C132`, `C132_shared`, `C132_links` | the definition genBox, used with doubles instead of exact numbers |
| C133 gen_box ends exactly at xmax and ymax | partial | `C133_partial`, `C133_false` | false in the code: lx*nx/nx need not be lx (three elements from 0 to 0.1 end after 0.1); holds if the length and nx times the length are doubles. Stated for x, the code for y is the same |
| C134 gen_box makes no element without width | partial | `C134_partial`, `C134_false` | false in the code: two elements between neighbouring doubles; holds if the elements are wider than twice the rounding error of C132. Stated for x |
| C135 check_connectivity accepts matching meshes in double precision | proved | `check_connectivityF_iff`, `C135`, `C135_links`, `C135_box` | x ** 2 and np.sqrt are parameters (Libm); sqrt_basic: correctly rounded ones satisfy the assumption |
| C136 check_connectivity only accepts faces that are near in double precision | partial | `C136_partial`, `C136_false` | false in the code for finite coordinates whose squares overflow (1e200) or vanish (1e-200), and for NaN; holds for coordinates up to 2^400 and tolerances up to 2^100, with explicit rounding errors. The C library is assumed accurate to two units in the last place; libm_accurate: correct rounding satisfies this |
| C137 rotate_2d is accurate in double precision and keeps links | proved | `C137`, `C137_mid`, `C137_links` | math.cos and math.sin are parameters that are near the exact values; C137_links holds for all doubles, also NaN |
| C138 edge_mid gives the same point from both elements at an edge in double precision | proved | `C138`, `C138_straight`, `libm_even` | x ** 2 and x ** 0.5 are parameters (Libm); EvenSq: squares do not depend on the sign, libm_even |
| C139 edge_mid of an arc is accurate in double precision | partial | `C139_partial`, `C139_false` | false in the code for half circles: rounding can make the number under the root negative, which gives NaN; holds with explicit errors if the square of the chord is smaller than that of the diameter by a factor of 1 - 2^-46, the chord is at least 2^-200 and all numbers are at most 2^200 |
| C140 lims of doubles are the exact extrema, and NaN if a value is NaN | proved | `C140`, `C140_order`, `npMin_nan`, `npMax_nan` | np.minimum and np.maximum are parameters with their documented behaviour; npMin_nan, npMax_nan: the ones of the model satisfy it |
| C141 merge links touching faces and gives a valid mesh in double precision | proved | `C141`, `mergeF_exact` | x ** 2 and np.sqrt are parameters (Libm), squares do not depend on the sign (EvenSq, libm_even). mergeF_exact: merge of doubles is the exact merge of their values with the rounded test |
| C142 generate_internal_bcs links free faces within the limit, each once, in double precision | proved | `C142`, `C142_complete`, `C142_raises`, `generateWith_sim` | C142 needs what C53 needs: faces free in the first field carry no links in others |
| C143 generate_internal_bcs only links faces that are near, in double precision | partial | `C143_partial`, `C143_false`, `generateF_links` | false in the code for finite coordinates whose squares overflow (1e200: far faces are linked, inf <= inf) or vanish (1e-200: ValueError for edges that are not zero); holds for coordinates up to 2^400, edges of at least 2^-500 and tolerances up to 2^100, with explicit rounding errors |
| C144 exponential_refinement_parameter returns the ratio to within its tolerance | partial | `C144_partial`, `C144_false` | false in the code for a million elements: the derivative is far too large below 1, the steps are tiny and the iteration is cut off after 10000 of them (ratio below 0.51, result above 0.72); holds for two elements of any lengths up to a ratio of 2^2100 |
| C145 extrude copies coordinates exactly and keeps links in double precision | proved | `C145`, `C145_box`, `extrudeF_exact` | extrudeF_exact: extrude of doubles has the values of the exact extrude of the values; C145_box: what gen_box builds satisfies the assumptions |
| C146 map2D keeps linked faces together in double precision | proved | `C146`, `C146_box`, `edgeMidF_local` | the transformation has no side effects and raises no exceptions; C146_box: gen_box, map2D and extrude one after the other |
| C147 keep_elements renumbers exactly in double precision | proved | `C147`, `C147_box`, `keepElementsF_exact`, `sub_whole_exact` | keepElementsF_exact: the values of the result are the exact result for the values; sub_whole_exact: the only arithmetic operation does not round |
| C148 The blocks of gen_circle are connected without gaps in double precision | proved | `C148_square`, `C148_o` | the blocks before merging; the defaults of the two functions are not computed in doubles |
| C149 The square of gen_circle is accurate in double precision and has no flat element | proved | `C149`, `squareCoordF_near`, `squareCoordF_lt` |  |
| C150 The square of gen_circle is symmetric in double precision | partial | `C150_partial`, `C150_false` | false by rounding of k/ns: with three elements the inner lines are not opposite; holds up to c/2^50, and exactly for the sides of the square |
| C151 The quarter O of gen_circle begins at the square and ends on the circle in double precision | proved | `C151`, `C151_inner`, `C151_outer`, `roughMath_rough` | roughMath_rough: a library that meets the conditions on the functions of math |
| C152 edge_mid of an edge on a sphere is accurate in double precision | proved | `C152` | the radius is the one that edge_mid reads, the fifth parameter; that this is the wrong one is C97 |

<!-- end -->
