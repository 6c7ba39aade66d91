# Design of the CML model and proofs

Subject: `demianmnave/CML` (header-only C++17 math library), sources read as text in `/repo`.
Everything below is machine-checked with Lean 4.33.0 + Mathlib; build with `lake build` in `/verif/lean`.

## Trusted base

* The Lean 4 kernel.
* The axioms `propext`, `Classical.choice`, `Quot.sound` (the usual Mathlib ones; no axiom of our own,
  no `sorry`, no `native_decide`, no `bv_decide`). Every property file ends with `#print axioms` commands
  for its theorems; no theorem depends on any other axiom, some depend on fewer.
* The hand translation of the C++ text into Lean. Every model definition cites file and lines in `/repo`
  and says where it simplifies.
* The meaning of the specifications (`Verif/Spec`, and Mathlib's `Matrix`, `Quaternion`, `Real.sin`, ...).

## What is modelled, and the simplifications

* **Arithmetic.** Scalars are elements of an arbitrary commutative ring / field / linear order, or real
  numbers where `sqrt`, `sin`, `atan2`, ... occur. The definitions of the expression nodes, assignments, LU,
  solve, products and determinants need nothing but the operations themselves, so the same definitions
  are also run with rounded numbers `Fl R` (`Model/Float`): every `+`, `-`, `*`, `/` returns a nearby number with
  a relative error of at most `R.u` (the standard model of floating-point arithmetic; `binaryRounding p` is an
  instance with `p + 1` significant bits and `u = 2^-(p+1)`), negation, `fabs` and comparison are exact, `sqrt` is rounded (C95–C102, C115, C119).
  Elsewhere the arithmetic is exact. Overflow, underflow, NaN, infinities and fused multiply-add are *not*
  modelled. A division whose divisor can be zero is either an explicit failing outcome of the model
  (`ub divZero`) or appears as an explicit non-zero hypothesis of the theorem; no theorem relies on Lean's
  `x / 0 = 0`.
* **Integers.** `int` sizes and indices are natural numbers (or integers where a sign check is modelled);
  `Model/Int32` repeats the size and index arithmetic of matrices with 32-bit `int` and C107 shows that both
  agree up to `INT_MAX` elements.
* **Templates.** A template is modelled by one Lean definition that takes the compile-time parameters
  (size, basis, layout, storage order, cross sign, ...) as ordinary arguments. A compile-time size check
  (`static_assert`) and the run-time check that replaces it for dynamic sizes are modelled by the same check
  with different errors (`staticAssert` stands for "does not compile").
* **Memory.** Where aliasing, lifetime or bounds matter (vector and matrix storage, expression evaluation,
  assignment, resize, copy/move, external storage), objects live in an explicit heap of blocks whose cells are
  raw / uninitialised / live / destroyed, and every read, write, allocation and release is checked.
  Undefined behaviour (`Out.ub`, `Res.ub`: out-of-bounds, use of an uninitialised, destroyed or freed object,
  bad release, division by zero) is an outcome distinct from an exception (`throw`).
* **Values.** Where memory does not matter (LU, determinant, inverse, the mathlib builders), a matrix is its
  dimensions and element function with bounds-checked reads and writes (`Mat`, `BMat`), a vector likewise
  (`AVec`); the layout theorems (C24, C25) justify forgetting the storage, and `Model/MatMem` repeats LU,
  inverse, determinant and `lu_solve` on memory and proves both equal (C109–C111). Output arguments that the code
  requires to be distinct from inputs are modelled as distinct unless a property is about that aliasing
  (C09, C72, C87).
* **Basis orientation.** `row_basis`/`col_basis` is a parameter; `basis_element i j` is modelled exactly as in
  `readable_matrix.tpp`.
* **Not modelled:** rounding of the elementary functions other than `sqrt` (and of `sqrt` outside of `length`, `normalize`); the distributions of `random` (random draws are universally quantified inputs);
  iostream formatting beyond the order and bounds of element reads; template overload resolution and
  compile-time type computation other than the promotion tables, the static sizes of expression nodes (C80,
  C81) and the acceptance of quaternion products (C85); copying elements that can throw; moved-from
  temporaries other than in C79; all code under `#if 0` (orthonormal.tpp 84ff, rotation.tpp 603ff,
  transform.tpp 114ff, translation.tpp 198ff, scale.tpp 112ff, projection.tpp 234ff, frustum.tpp 108ff,
  quaternion/rotation.tpp 325ff).

### Model modules and the code they transcribe (below `/repo/cml`)

| module | code |
|--------|------|
| `Model/Core` | outcomes; exception classes of `common/exception.h`, `*/size_checking.h` |
| `Model/Scalar` | `scalar/functions.h` |
| `Model/Orders` | `mathlib/euler_order.h`, `mathlib/axis_order.h` |
| `Model/Promotion` | `common/{promotion,size_tags,basis_tags,layout_tags}.h`, `common/mpl/type_table.h`, `storage/promotion.h`, `storage/*_selector.h` |
| `Model/Hash` | `common/hash.h`, `util/vector_hash.h` |
| `Model/Heap` | storage of `vector/` and `matrix/` `{fixed_compiled, dynamic_allocated, fixed_external, dynamic_external}` |
| `Model/Expr` | expression nodes and products of `vector/` and `matrix/`: binary, unary, scalar, cross, subvector, outer product, row, column, transpose nodes with their compile-time sizes (`*_node.h`, `*/promotion.h`), `matrix_product.tpp`, `vector_product.tpp`, `size_checking.tpp` |
| `Model/VecOps`, `Model/VecReal`, `Model/Sqrt` | `vector/{writable_vector, readable_vector, dynamic_allocated, comparison, dot, perp_dot, triple_product}.tpp`, `util/vector_print.tpp` |
| `Model/MatMem` | `matrix/detail/{lu, determinant}.tpp`, `matrix/detail/inverse.h`, `matrix/lu.tpp` on memory |
| `Model/LinStmt` | `lu`, `lu_pivot`, pivoted `lu_solve` and `determinant` as statements on variables, with their temporaries: `matrix/lu.tpp:15-41, 102-140`, `matrix/lu.h:44-47`, `matrix/readable_matrix.tpp:79-85` |
| `Model/MatOps` | `matrix/{writable_matrix, readable_matrix, dynamic_allocated, comparison}.tpp`, `matrix/detail/{apply, copy, generate, transpose, check_or_resize}.h` |
| `Model/MatMove` | move assignment of `matrix/fixed_compiled.tpp`, `vector/fixed_compiled.tpp` |
| `Model/Raw` | `data`/`begin`/`end` of all storages, `assign(Pointer)` and the pointer constructors of `vector/dynamic_allocated.tpp`, `matrix/dynamic_allocated.tpp`, view move construction and `reset`, `random` of vectors and matrices (the distribution is a parameter: its draws) |
| `Model/Mat` | `matrix/detail/{determinant, inverse, lu}`, `matrix/lu.tpp` |
| `Model/Float` | rounded arithmetic (not code: the element type of the programs in C95–C102, C115, C119) |
| `Model/Nan` | values with NaN (not code: the element type of the programs in C120); `quaternion/comparison.tpp` with the element type's own operators |
| `Model/IntAngle` | the builders of rotations, `rotate_vector` and the conversions to Cartesian coordinates again with the type of the angle as a parameter; `default_integral_traits`, `deg`, `rad`, `constants` of integral types |
| `Model/IntElem` | integers as element type (truncating division and square root) |
| `Model/SelfArg`, `Model/SelfBuild`, `Model/SelfLook` | `set(...)` and the transform builders with arguments that refer to the target |
| `Model/Mixed` | `scalar/{binary_ops, unary_ops, promotion}.h` with the arithmetic conversions of the language; the element-wise nodes, `assign`, compound assignment, `dot`, element of a matrix product and comparison over different element types |
| `Model/IntScalar` | `wrap`, `map_range` and `scalar_traits::fmod` for integral types, with the conversion to `double` |
| `Model/IntProj` | the projections of `mathlib/matrix/projection.tpp` for bounds of an integral type, and the `_LH`/`_RH` variants |
| `Model/FovZoom` | `util.h` |
| `Model/RoundBuild` | the builders of rotations again, for any element type with a sine and a cosine |
| `Model/EulerTypes` | `matrix_to_euler` with output variables of three types |
| `Model/RoundVec` | `rotate_vector` again, for any element type with a sine and a cosine |
| `Model/RoundProj` | `matrix_orthographic` and `matrix_perspective` again, for any element type |
| `Model/AxisTypes` | `matrix_to_axis_angle` and `quaternion_to_axis_angle` with an axis and an angle of other types |
| `Model/RandomSelf` | `random_unit(v, v, a)`, target and direction the same vector |
| `Model/OutArg` | the functions with output arguments again, over one memory, the outputs anywhere in it |
| `Model/Quat`, `Model/QuatReal` | `quaternion/` |
| `Model/Lin` | `mathlib/matrix/{basis, concat, invert, misc, projection, scale, size_checking, transform, translation}.tpp`, `mathlib/vector/{misc, transform}.tpp`, `mathlib/frustum.tpp` |
| `Model/Act` | the matrix functions of `mathlib/matrix/{basis, translation, scale, misc, transform, invert, projection, rotation}.tpp` as procedures with exception states |
| `Model/Rotation` | `mathlib/matrix/rotation.tpp`, `mathlib/quaternion/{rotation, basis}.tpp`, `mathlib/vector/{rotation, orthonormal}.tpp`, `look_at`, field-of-view projections |
| `Model/Basis` | getters of `mathlib/matrix/basis.tpp` |
| `Model/Geometry` | `mathlib/{coordinate_conversion, random_unit, frustum}.tpp`, `mathlib/vector/angle.tpp` |
| `Model/Misc` | numeric constants, guarded scalar functions, matrix and quaternion printing, allocator choice of `storage/` |

## Layout of the Lean project

* `Verif/Model/*.lean`: the model, function by function, with citations.
* `Verif/Spec/*.lean`: small independent specifications (denotations of expressions, abstract histories,
  rotations, linear and affine maps of a matrix, ...).
* `Verif/Lemmas/*.lean`: helper lemmas.
* `Verif/Props/*.lean`: the property theorems, each near an `example` showing that its hypotheses are
  met by a concrete non-trivial case, and `#print axioms` for each.
* `tools/properties.py`, `tools/manifest.py` write `properties.jsonl` and `MANIFEST.json`;
  `tools/mutate.py`, `tools/mutations.py`, `tools/automut.py` do the mutation testing.

## Property by property

| id | modelled as | how proved |
|----|-------------|------------|
| C01–C05, C90 | scalar functions over any linear order / ordered field, `fmod` as truncated division on reals | case analysis, floor arithmetic |
| C06 | order codes as numbers with the same bit arithmetic | complete finite table + arithmetic |
| C07, C41 | syntax tree of expression nodes; `build` = constructor checks, `get` = checked element read | induction on the tree, against a denotation into functions / Mathlib matrices |
| C08, C09, C16, C76, C87 | memory cells + lazy reads + store loop | loop invariant; counterexamples for the non-elementwise nodes |
| C10, C42 | loops of `comparison.tpp` on lists | induction on the list; spec = Mathlib lexicographic order |
| C11–C15, C69, C83, C84 | loops on lists / functions | induction; Mathlib inner product facts |
| C17, C19–C23, C78, C82 | heap of blocks with liveness of each cell; operations with failing allocation | invariant over all histories (induction over operation lists); counterexamples for C17, C21, C82 |
| C18 | `BitVec 32/64` transcription of `hash_combine` | explicit inverse functions |
| C24–C28 | linear index arithmetic, store loops | arithmetic; loop invariants; counterexample for C28 |
| C29, C30, C32 | accumulation loops as written (first term outside the loop) | equality with Mathlib `Matrix.mul`, `trace`; UB outcome for inner size 0 |
| C31 | accessors on element functions | frame lemmas |
| C33, C35 | closed forms transcribed | `ring`/`field_simp` against Mathlib `det` |
| C34, C36, C39 | loops transcribed | false in general: counterexample theorems; `_partial` theorems under the extra hypothesis that makes them true |
| C37, C38, C40 | in-place loops transcribed, division by a zero pivot is a failing outcome | loop invariants |
| C43–C48, C86, C88 | 4-element storage with order tags, sign of cross as parameter | equality with Mathlib `Quaternion`; counterexamples for C46, C47, C87 |
| C49–C57, C70, C75 | element assignments transcribed over ℝ with `Real.cos` etc., `atan2 y x` = `Complex.arg (x + iy)` | trigonometric identities, orthogonality algebra |
| C58–C68, C71, C72, C89 | transcription over ℝ / a field, for both bases and all sizes that pass the checks | algebra against the linear / affine map of the matrix |
| C73, C92 | tag enumerations, allocator identities | complete finite table, case analysis |
| C74 | random draws are arguments, the retry loop has fuel | induction over the attempts, inner product algebra |
| C77, C91 | element reads of the printing loops | UB outcome for empty vector; `_partial` for non-empty |
| C105, C106 | sizes of all arguments; the matrix functions again as procedures whose argument is observable after an exception (`Model/Act`) | equality of both models; rules for check-first procedures; counterexamples |
| C107, C108 | the size and index arithmetic again with 32-bit `int` (`Model/Int32`), overflow undefined or wrapping | equality with the unbounded model below `INT_MAX` elements; counterexamples beyond |
| C109–C111 | the loops of C33–C40 again with every element access on memory (`Model/MatMem`); index arrays and `y` of `lu_solve` are values, temporaries have run-time dimensions | simulation: each memory program does what the value program does and touches only its object |
| C112 | all statements of histories (`Op`, see C78 and C82) for trivial element types; a store without memory (`Spec/Program`) gives their meaning | refinement, induction over the program; every statement either has its mathematical effect on the variable it names or throws `bad_alloc` with nothing changed |
| C118 | the statements of C112 and `zero`, `cardinal`, `minimize`, `maximize`, `identity`, `set_row`, `set_col`, `transpose`, `inverse`, `lu`, `lu_solve`, `lu_pivot`, `determinant` on dynamic variables (`Model/LinStmt`); a store without memory (`Spec/LinProgram`) gives their meaning; the allocation of the row order and of the vector `y` is not modelled | refinement, induction over the program; temporaries by a scope rule (`Out.Does.scoped`) |
| C113 | expression objects built in one state and evaluated in another (`VExpr.build`, `VNode.get`): named operands by reference, temporaries by value (`/repo/cml/vector/binary_node.h:103-115`, `/repo/cml/common/type_util.h:60-81`, and the same in the other nodes); `Spec/Deferred` says what such an object is worth | induction over expressions, combined with C112 |
| C114 | the same definitions as C56, C57, inside of the tolerance band | estimates with the unit quaternion of the rotation; polynomial inequalities |
| C103, C104 | external matrices over the same heap; `resize` of views | places of elements in storage (`SameSequence`); counterexamples for C104 |
| C115 | `vLength`, `vNormalized`, `vNormalize`, `qLength`, `qNormalized`, `qNormalize` over rounded numbers | factors as in C95; the square root of a factor is no farther from one |
| C116 | move assignment with the nested array of fixed-size matrices; out-of-bounds subscripts undefined (`strict`) or an access to the array as one piece (`flat`) | loop invariant over the visited places; arithmetic of the place `i*R+j` |
| C117 | pointers as block and offset; iteration by comparing pointers; copies read lazily from memory | induction over the iteration; store-loop invariants; `List.ofFn_mul` for the two layouts |
| C119 | `rotationQuaternion`, `transformVector`, `transformPoint` over rounded numbers; chains of `matMul`, `qMul`, `qMulAssign` | factors as in C95; Frobenius norm, invariant under orthogonal matrices; induction over the chain |
| C120 | the comparison operators over a linear order extended by NaN (`Model/Nan`); quaternion operators again with the element type's own `==` and `<` | the loop finds the first position that is not tied; counterexamples |
| C121 | the traits of the angle type as a structure; the library functions are arbitrary functions on the integers | irrationality of `π`; evaluation |
| C122 | the generic functions at an integer type with truncating division | adjugate identity; unit determinants; bounds of the truncated square root |
| C123 | `set` over the memory model with references as arguments; the builders of `Model/Lin` and `Model/Rotation` again, each argument read where the code reads it; the axes of `matrix_look_at` as lazy expressions, evaluated anew for every element stored | storing in turn (`InTurn`) has a unique result, equal to the meant one iff no reference points to an element replaced before; equality with the plain builders at the identity matrix |
| C124 | the functions with output arguments over one memory of cells (`Cells`), every read and store in the order of the code; reals, so no rounding; a resizable output of the right size | `Cells.Stores`: the listed cells hold the meant values and all others are unchanged; equality with it under exactly named placements; negations with witnesses |
| C125–C127 | element types as data (9 types), values tagged integers or numbers of an ordered field; usual arithmetic conversions and `std::common_type` as functions of the types; operands of equal size, read by element | congruence modulo `2^bits` and uniqueness in the range; induction over expressions and loops; the tables of types by cases; counterexamples |
| C128 | integers with the arithmetic of `Model/Mixed`; `double` as rounding to 53 bits | division with remainder; evaluation of counterexamples |
| C129, C130 | integral bounds unbounded, elements in a field; variants as in the code | homogeneous image of a point in terms of the quotients |
| C131 | quaternions over the integers of `Model/IntElem` | the norm bounds every element; eight quaternions have norm one |
| C132 | real numbers; poles of the tangent undefined | arctangent inverts the tangent between its poles |
| C133 | as C74, one vector for target and direction | closed form of the vector that is normalised; inner product algebra |
| C134 | as C95–C102; sine and cosine with relative error at most `p u` | counting of roundings (`Tracks`) against Rodrigues' formula and the Euler matrices |
| C135 | conversions `c` of angles with `c (-x) = -c x` | case analysis, reduced to `toEuler` of C57; the failure by the round trip of C57 |
| C136 | sums and products in the type of the axis are exact (integers) | reduced to `toAxisAngle` of C56; the failure for all axes by Rodrigues' formula |
| C137 | as C136; products in the type of the angle are exact | reduced to `qToAxisAngle` of C56; values of `atan2` at truncated arguments |
| C138 | as C134 | counting of roundings (`Tracks`), Cauchy-Schwarz for the magnitudes |
| C139 | as C64 and C65, with the roundings of C95 | relative factors: only inputs are added or subtracted, so no cancellation amplifies an earlier error |
| C95–C102 | rounding errors: `dot`, products, LU, solve, arbitrary expressions, determinants, closed-form inverses, quaternions | standard model; factors `t` with `|t-1| ≤ (1-u)^-k - 1`; logical relation between four evaluations of an expression |
| C79–C81, C85, C93, C94 | compile-time facts as functions of the static sizes / types | induction over expressions; counterexamples |

## Disagreements between code and property found

Each item is proved as a negation with a concrete witness (or for a whole class of inputs) and a `_partial` or
exact theorem says what does hold.

1. **Pivoted LU** (`matrix/detail/lu.tpp:53`): the initial candidate `max = M(k,k)` is not taken in absolute
   value, so a negative diagonal entry is never accepted in place; `diag(-1,1)` is reported singular (sign 0),
   a 5×5 determinant comes out 0, a zero last pivot is not detected, and the 0×0 determinant reads out of
   bounds (C34, C39).
2. **Gauss–Jordan inverse** (`matrix/detail/inverse.h`): the pivot search starts from `|M(0,0)|` even if row 0
   has been used, and the column swaps are undone in forward instead of reverse order (C36).
3. **Resize** destroys the old elements before copying from them (undefined for types with destructors, C21)
   and leaves new elements of trivial types uninitialised.
4. **Aliasing**: `v = cross(v,w)`, `v = subvector(v,i)`, `M = transpose(M)`, `M += transpose(M)`,
   `M.set_row(1, col(M,0))` read elements that were already overwritten (C09);
   `matrix_linear_transform(m, m)` and `matrix_affine_transform(m, m, t)` clear the source first (C72).
5. **Scalar compound assignment** `v *= v[0]` uses the changed element (C16, C87 for quaternions).
6. **Dynamic `+=`/`-=`** resize the left side to the size of the right one (C17).
7. **Matrix resize** copies the storage linearly, so elements change position when the line length changes
   (C28).
8. **Empty operands**: products with inner dimension 0, the trace of a 0×0 matrix and printing an empty vector
   read element 0 (C30, C32, C77).
9. **Derivatives of Euler rotations** have the wrong sign for the odd orders xzy, yxz, zyx, and leave
   `m(3,3) = 1` in larger matrices (C52).
10. **Quaternion `exp`/`log`** divide by the length of the imaginary part, zero for real quaternions (C47).
11. **Quaternion assignment across storage orders** copies by position, not by component (C46).
12. **Quaternion products** of operands of different types do not compile (C85).
13. **`cross`** of temporaries of dynamic size throws (it checks a moved-from operand, C79).
14. **`matrix_basis_node`** takes the number of columns as its compile-time size also for the column basis
    (C81).
15. **`matrix(rows, cols, array)`** leaks its block if the array has the wrong length (C82).
16. **`random_unit(n, d, a)`** divides by zero if the drawn vector is parallel to `d`; always so in one
    dimension (C74).
17. **Allocator choice** in `storage_disambiguate` is not associative (C92).
18. **Transpose nodes** (`matrix/transpose_node.h:15-45`) keep the storage type of their operand, from which
    products and sums take their compile-time dimensions (`matrix/promotion.h:25-209`). For a fixed-size `A`
    that is not square `transpose(A)*B` loses rows or reads behind the end of `A`, `transpose(A)*v` writes
    behind the end of its result or leaves elements uninitialised, and `transpose(A)+B` does not compile for
    a fixed-size destination of the right dimensions (C93).
19. **Outer products** of a fixed-size and a dynamic vector have the fixed-size tag with a dimension -1 and
    cannot be assigned to a fixed-size matrix (C94, C80).
20. **The subvector of a one-element fixed-size vector** has the compile-time size -1 instead of 0 (C80).
21. **`M += N` with different dimensions** is reported only if `M` cannot be resized. A dynamic matrix (or a view
    of run-time dimensions) with as many elements as `N` is silently reshaped and the elements are combined by
    their place in storage; a dynamic matrix with more elements is truncated; one with fewer is enlarged and
    the new, uninitialised elements are read (C104).
22. **Exceptions after the first write**: `matrix_translation*` writes the identity before the size checks,
    `matrix_rotation_align`, `matrix_look_at` and `matrix_rotation_euler_derivatives` write it before the remaining
    checks, `matrix_set_basis_vectors` and `matrix_affine_transform` find a wrong later argument after storing
    the earlier ones (C106).
23. **`resize` to more than `INT_MAX` elements** computes `rows * cols` in `int`: undefined behaviour, in practice
    a 65536 × 65536 matrix without any memory; views of more than `INT_MAX` elements cannot be indexed (C108).
24. **`lu_solve(LU, x, b)` with `x` overlapping `LU`** (e.g. a view of a row) returns a wrong answer without any
    diagnostic; overlap of `x` and `b` is harmless (C111).
25. **Move assignment of fixed-size matrices** (`matrix/fixed_compiled.tpp:85-95`) loops over `m_data[i][j]`, `i < R`,
    `j < C`, also for column-major matrices, whose array is `value_type[C][R]`. For column-major matrices that
    are not square this is out of bounds: behind the end of the object for `R > C`, elements not copied for
    `2 <= R < C`. It is used by `M = A * B` whenever the product has the type of `M` (C116).
26. **`x.assign(y.data())` for matrices**: `assign(Pointer)` reads in row-major order whatever the layout is, `data()`
    delivers the order of the layout. So the pair transposes a column-major `y`, and `M.assign(M.data())` destroys a
    column-major `M` (C117).
27. **Comparisons with NaN**: vector and matrix `==` only ask whether an element is smaller than its counterpart, so
    NaN equals everything; `==` is not transitive and `<` has cycles. Quaternion `==` uses `==` of the elements, so
    the same four numbers are equal as a vector and different as a quaternion (C120).
28. **Angles of integral type**: the builders accept any angle type that converts to the element type, and the traits of
    an integral type truncate the cosine and the sine to integers.  For every integer other than zero both become zero:
    `matrix_rotation_2D(m, 1)` stores the zero matrix, `matrix_rotation_axis_angle` the projection onto the axis,
    `quaternion_rotation_*` (which halve the angle by integer division) the identity for ±1 and the zero quaternion from
    2 on.  `rad(n)` of an integer is zero (C121).
29. **Integer elements**: `normalize` of an integer vector is the unit vector only for multiples of coordinate vectors;
    the inverse of an integer matrix is right only for determinant ±1 (and not even then from 5×5 on); the determinant is
    wrong from 5×5 on (C122).
30. **Arguments that refer to the target** (C123): `v.set(v[1], v[0])` and `M.set(...)` store in turn, so that an exchange
    duplicates an element; `dv.set(dv[0], dv[1], 9)` on a dynamic vector of two elements frees the old elements before it
    reads them. `matrix_scale(m, m(0,0), m(1,1), m(2,2))`, `matrix_translation(m, row(m, 3))`,
    `matrix_rotation_axis_angle(m, row(m, 0), angle)` and `matrix_rotation_align` set `m` to the identity before they read
    their arguments, `matrix_skew_symmetric` sets it to zero. `matrix_look_at(m, row(m, 3), target, up)` looks from the
    origin; with `row(m, 1)` as up vector its lazy axes change while they are stored and the result is no rotation.
31. **Output arguments that refer to the input** (C124): `cartesian_to_polar(v, v[0], v[1])` computes the angle from the
    radius it has just stored; cylindrical coordinates cannot be stored over the vector in any order; spherical ones only
    with phi at the element along the axis; `matrix_to_euler`, `matrix_to_axis_angle` and
    `matrix_get_transposed_basis_vectors` into rows of the matrix itself read elements they have replaced.
32. **Narrow unsigned elements** (C126): elements of `unsigned short` are multiplied as `int`, so that `dot`, products and
    `v *= s` overflow (undefined) from 65535 * 65535 on, although the result type is unsigned; matrix products of
    `unsigned char` sum up in `int` and are undefined for sums above `INT_MAX`, where `dot` wraps.  `-v` of such a vector is
    a vector of `int`, so `a + (-b)` and `a - b` differ (C125).
33. **Comparison of signed and unsigned elements** (C127): `{-1} == {4294967295u}`, and not `{-1} < {1u}`.
34. **`wrap` and `map_range` on integers** (C128): `wrap` on unsigned values below `min` gives the wrong residue unless
    `max - min` is a power of two, e.g. `wrap(1u, 2u, 5u) == 2u`; `wrap<int8_t>(0, -128, 127) == -128`; 64-bit values are
    rounded to `double`; `map_range` sends everything below the upper end to the lower end of the target.
35. **Projections with integral bounds** (C129): `matrix_orthographic_RH(m, 0, 640, 480, 0, -1, 1, z_clip_neg_one)` is a
    matrix that maps every point to the origin, since `1 / (right - left)` is an integer division.
36. **Quaternions of integers** (C131): `inverse` gives the zero quaternion for everything but the eight units, `normalize`
    a unit quaternion in the direction of its argument only for their multiples. Both compile without a diagnostic.
37. **`random_unit(v, v, a)`** (C133) overwrites the direction before it has been read: outside of the cone in two
    dimensions (for `v = (0, 1)` unless the random angle is zero), a division by zero in all others.
38. **`matrix_to_euler`** (C135, `rotation.tpp:530-531`) converts the third angle to the type `E0` of the first one in the
    branch for a repeated axis outside of gimbal lock: with `int a0; double a2`, the angle `1/2` is returned as zero.
39. **`matrix_to_axis_angle`** (C136) computes the angle from the axis after its conversion to the type of its elements:
    with an integral axis, a rotation with `|sin| < 1/2` is returned as angle zero if it is acute, and divides by zero
    if it is obtuse (unless it is a half turn about a coordinate axis).
40. **`quaternion_to_axis_angle`** (C137, `quaternion/rotation.tpp:243`) converts the arguments of `atan2` to the type of
    the angle: with `int angle`, every unit quaternion gives zero, but half turns give two (instead of three).  With
    an integral axis every unit quaternion but `±i, ±j, ±k` gives no rotation.

Documentation that disagrees with the code, the theorems state what the code does: `concat.h:20-21` and the
order of Euler angles (`matrix/rotation.h:135-137`, `quaternion/rotation.h:92-94`) are reversed
(`eulerRot_order_matters`); `wrap` returns `[min, max)` where `[min, max]` is documented;
`matrix_scale_2D/3D` require the size of an affine matrix (`scale_throws`).
Row, column and basis nodes check only that the index is not negative; `subvector` does not check its index;
comparisons of differently sized vectors do not throw; pivoted `lu_solve` does not check that the
decomposition is square; move assignment exchanges the arrays, and external vectors are rebound by move and
aliased by copy construction (C22, C23); assignment to a view `matrix<E, external<>>` takes over the dimensions of
the source if the number of elements agrees (C103). These are part of the model.

Not expressible in the model, since it does not compile: `operator=(std::initializer_list)` of a temporary vector or
quaternion (`writable_vector.tpp:298-304`, `writable_quaternion.tpp:318-324`) returns an lvalue as an rvalue reference and
is ill-formed once it is instantiated.

Preconditions that the code does not check and the theorems state as hypotheses or as a separate UB outcome:
non-parallel vectors for `orthonormal_basis`, alignment and `look_at`; planes with a non-zero normal when
frustum planes are normalised; non-zero axis and vector lengths for normalisation; non-degenerate projection
boxes; non-zero aspect ratio.

## Mutation testing

In a scratch copy one definition of the model is edited like a realistic bug and the project is rebuilt;
`seeded/LOG.jsonl` has one line per attempt. `tools/mutations.py` holds the hand-written edits,
`tools/automut.py` generates one-token edits (sign, comparison, index, sine/cosine, dropped statement, ...) for
every definition of a model file. Survivors led to new or tighter theorems, listed under `tightened` in the
log; edits that do not change the meaning (for example of a default element outside of the bounds) are
recorded as equivalent.
