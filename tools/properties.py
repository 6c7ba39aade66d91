#!/usr/bin/env python3
"""Source of properties.jsonl: one tuple per property.  Run to regenerate."""
import json, os
P = []
def p(id, title, statement, quantifier, why, anchors):
    P.append(dict(id=id, title=title, statement=statement, quantifier=quantifier,
                  why_tests_cant=why, anchors=anchors))

# ---------------------------------------------------------------- scalars
p("C01","clamp confines to the range and is the identity inside it",
  "For min <= max, cml::clamp(v,min,max) always lies in [min,max], equals v whenever v is already in [min,max], returns the nearer end point otherwise, is monotone in v and idempotent; in_range agrees with it (in_range(v) iff clamp(v)=v).",
  "for every linearly ordered scalar type and all v, min, max with min <= max",
  "the input space is the whole scalar type; tests sample a handful of values",
  ["cml/scalar/functions.h: clamp, in_range, sign, acos_safe, sqrt_safe"])
p("C02","wrap returns the unique representative of its residue class in [min,max)",
  "For min < max, cml::wrap(v,min,max) is in the half-open range [min,max), differs from v by an integer multiple of (max-min), is the identity on [min,max), and is therefore periodic and idempotent. (The doc comment says [min,max]; max itself is never returned.)",
  "for all real v, min, max with min < max",
  "needs all reals, including arguments arbitrarily far outside the range and exact multiples of the period",
  ["cml/scalar/functions.h: wrap"])
p("C03","next/prev/cyclic_permutation enumerate cyclic shifts",
  "next(.,N) and prev(.,N) are mutually inverse on 0..N-1 and stay in range; cyclic_permutation(first,...) for 2, 3 and 4 indices returns exactly the cyclic (for 3: even) rotation of 0..n-1 that starts with first.",
  "for every N >= 1 and every index 0 <= i < N",
  "N is unbounded for next/prev",
  ["cml/scalar/functions.h: next, prev, cyclic_permutation"])
p("C04","index_of_max / index_of_min return an extremal element",
  "index_of_max (2, 3 and 4 arguments) returns an in-range index whose argument is >= all the others, index_of_min one whose argument is <= all others; the _abs variants do the same for absolute values.",
  "for every linearly ordered scalar type and all argument values, including all tie patterns",
  "the space of values (and ties) is infinite; the nested conditional has a distinct path per ordering",
  ["cml/scalar/functions.h: index_of_max, index_of_min, index_of_max_abs, index_of_min_abs"])
p("C05","map_range is the affine map between the two ranges",
  "map_range(v,min1,max1,min2,max2) maps min1 to min2 and max1 to max2, is affine in v, preserves order and range membership for non-degenerate increasing ranges, and mapping back with the ranges exchanged returns v.",
  "for every ordered field and all v and ranges with min1 < max1 (and min2 < max2 for the round trip)",
  "universally quantified over a field",
  ["cml/scalar/functions.h: map_range"])
p("C06","axis/euler order codes encode and decode losslessly",
  "Unpacking any of the 6 axis orders gives three distinct axes i,j,k with parity odd exactly when (i,j,k) is an odd permutation; pack_axis_order inverts unpack_axis_order; swap_axis_order exchanges the first two axes and is an involution; each of the 12 Euler order names decodes to the axes in its name.",
  "for all 12 Euler orders, all 6 axis orders and both 2D orders (complete finite domain)",
  "a complete table: stated for the whole enumeration and for the integer pack/unpack arithmetic",
  ["cml/mathlib/axis_order.h: unpack_axis_order, unpack_axis_order2D, pack_axis_order, swap_axis_order","cml/mathlib/euler_order.h: unpack_euler_order"])
# ---------------------------------------------------------------- vectors
p("C07","A vector expression throws exactly when it is mis-sized, and otherwise every element is defined and is the mathematical value",
  "For every finite expression built from vectors with +, -, unary -, scalar * and /, hadamard, cross (of operands that are named or have a compile-time size, see C79) and subvector (not of a one-element vector of compile-time size, see C80): building it throws a size error iff some operator is applied to mis-sized operands, and otherwise every in-range element read is in bounds and equals the element of the mathematical result.",
  "for all expression trees (any depth), all operand sizes and all element values",
  "the set of expression trees is infinite; templates are only ever instantiated at a few shapes in tests",
  ["cml/vector/binary_node.tpp","cml/vector/scalar_node.tpp","cml/vector/unary_node.tpp","cml/vector/cross_node.tpp","cml/vector/subvector_node.tpp","cml/vector/size_checking.tpp"])
p("C08","Element-wise assignment is safe under aliasing",
  "Assigning (or +=, -=) an element-wise expression to a vector that itself occurs in the expression stores the same values as evaluating the whole expression first and then storing it, provided each operand is either exactly the destination or does not overlap it.",
  "for every element-wise expression tree, every memory content and every size",
  "quantifies over all expressions and memory states; depends on the interleaving of lazy reads and writes",
  ["cml/vector/writable_vector.tpp: assign, operator+=, operator-=","cml/vector/binary_node.tpp","cml/vector/scalar_node.tpp","cml/vector/unary_node.tpp"])
p("C09","Assigning cross(v,w), subvector(v,i) or transpose(M) back to its own operand evaluates the right-hand side before overwriting",
  "v = cross(v,w), v = subvector(v,i), M = transpose(M) store the value the right-hand side had before the assignment.",
  "for all operand values",
  "a test passes for the values for which the corrupted and the right result happen to agree",
  ["cml/vector/cross_node.tpp: i_get","cml/vector/subvector_node.tpp: i_get","cml/matrix/transpose_node.tpp: i_get","cml/vector/writable_vector.tpp: assign"])
p("C10","Vector comparison is a lexicographic total order consistent with equality",
  "For vectors of any (also different) sizes over a linearly ordered scalar, < is the lexicographic strict order where a proper prefix is smaller (irreflexive, transitive, total), exactly one of a<b, a==b, a>b holds, == is equality of sizes and elements, and <=, >=, != are the corresponding combinations; no comparison throws or reads out of bounds.",
  "for all sizes and all element values",
  "transitivity and trichotomy quantify over triples of vectors of any size",
  ["cml/vector/comparison.tpp"])
p("C11","dot is a symmetric bilinear form and length is its norm",
  "dot(a,b) equals the sum of products, is symmetric and bilinear, length_squared is dot with itself, and length is the square root; Cauchy-Schwarz and the triangle inequality hold; differently sized or empty operands raise a size error.",
  "for all sizes n >= 1 and all element values",
  "unbounded dimension",
  ["cml/vector/dot.tpp: dot","cml/vector/readable_vector.tpp: length_squared, length"])
p("C12","cross, perp_dot and triple_product satisfy the vector-algebra identities",
  "cross is bilinear and anticommutative, orthogonal to both operands, satisfies the Lagrange, Jacobi and double-cross identities and the right-hand rule on the basis vectors; triple_product(a,b,c) is the determinant of the rows and is invariant under cyclic permutation; perp_dot(a,b) is the 2x2 determinant.",
  "for all 3D (2D) vectors over a commutative ring",
  "polynomial identities over an arbitrary ring",
  ["cml/vector/cross_node.tpp","cml/vector/triple_product.tpp","cml/vector/perp_dot.tpp"])
p("C13","normalize yields a unit vector in the same direction",
  "For a non-zero vector, v.normalize() (both the in-place and the value-returning form) has length one and is a positive multiple of v, and normalizing again changes nothing.",
  "for every dimension and every non-zero vector over the reals",
  "all dimensions and all values",
  ["cml/vector/writable_vector.tpp: normalize","cml/vector/readable_vector.tpp: normalize, length"])
p("C14","subvector drops exactly the selected element",
  "v.subvector(i), of a vector that is not a one-element vector of compile-time size (see C80), has size v.size()-1 and its elements are those of v with the i-th removed, in order; combined with the (subvector, element) constructor at the last index it rebuilds v.",
  "for all sizes and all valid indices",
  "unbounded sizes",
  ["cml/vector/subvector_node.tpp","cml/vector/readable_vector.tpp: subvector","cml/vector/writable_vector.tpp: assign(other, eN...)"])
p("C15","minimize/maximize compute the element-wise meet and join",
  "After v.minimize(w) each element is the smaller of the two and after v.maximize(w) the larger; together they are lattice operations (idempotent, commutative, associative, absorbing); the sizes must agree, otherwise a size error is thrown and v is unchanged.",
  "for all sizes and element values",
  "unbounded sizes and values",
  ["cml/vector/writable_vector.tpp: minimize, maximize"])
p("C16","Scalar compound assignment multiplies every element by the scalar passed by the caller",
  "After v *= s or v /= s every element equals the old element times (divided by) the value s had at the call.",
  "for all sizes, element values and scalars, including s being a reference to an element of v itself",
  "only fails when the scalar aliases an element, a schedule-like condition tests do not enumerate",
  ["cml/vector/writable_vector.tpp: operator*=, operator/=","cml/matrix/writable_matrix.tpp: operator*=, operator/=","cml/quaternion/writable_quaternion.tpp: operator*=, operator/="])
p("C17","Compound += / -= on resizable vectors adds element-wise or reports a size error",
  "v += w leaves every element equal to the sum of the old elements when the sizes agree and never reads an indeterminate element.",
  "for all sizes (equal or different) and element values",
  "the failure is an indeterminate read, invisible to most test runs",
  ["cml/vector/writable_vector.tpp: operator+=, operator-=","cml/vector/detail/check_or_resize.h","cml/vector/dynamic_allocated.tpp: resize"])
p("C18","The vector hash separates vectors that differ in one element",
  "std::hash of a cml::vector depends only on the element hashes; two same-sized vectors whose element hashes differ in exactly one position never collide, because combining is a bijection in the running state and in the element hash separately (32- and 64-bit).",
  "for all sizes, all element hashes and all positions",
  "2^64 states per element and unbounded length",
  ["cml/common/hash.h: hash_combine_impl","cml/util/vector_hash.h: hash::operator()"])
# ---------------------------------------------------------------- storage
p("C19","Dynamic vectors never leak, double-free or touch freed memory under any history",
  "Starting from nothing, any sequence of construct, resize, copy-construct, copy-assign, move-construct, move-assign, element write and destroy on any number of dynamic vectors (trivially destructible elements, allocation may fail at any point) keeps: each live vector owns exactly one block of exactly its size (or none when empty by default construction), no two vectors share a block, no operation frees a block it does not own, and after all vectors are destroyed no block is left.",
  "for every finite history of operations and every choice of failing allocation",
  "histories are unbounded",
  ["cml/vector/dynamic_allocated.tpp"])
p("C20","resize keeps the common prefix and sets the size",
  "For trivially destructible elements v.resize(n) with n >= 0 makes size() = n and keeps the first min(old,n) elements; with n < 0 it throws std::invalid_argument and with a failed allocation it throws, in both cases leaving v unchanged; resize to the same size is a no-op that keeps the buffer.",
  "for all old and new sizes and all element values",
  "unbounded sizes and both exception paths",
  ["cml/vector/dynamic_allocated.tpp: resize, resize_fast"])
p("C21","resize never reads a destroyed element",
  "v.resize(n) copies each kept element from a live object, for every element type, and an exception from an element copy leaves the vector valid.",
  "for all element types, sizes and throwing positions",
  "reading a destroyed object is undefined behaviour and usually appears to work",
  ["cml/vector/dynamic_allocated.tpp: resize, destruct","cml/matrix/dynamic_allocated.tpp: resize"])
p("C22","Moving a dynamic vector or matrix transfers the buffer in constant time and loses nothing",
  "After a = std::move(b), a has exactly the former contents of b and b the former contents of a; move construction leaves b empty; no element is copied and no allocation happens; self-move is harmless.",
  "for all sizes and contents",
  "unbounded contents; needs buffer identity, not just values",
  ["cml/vector/dynamic_allocated.tpp: operator=(vector_type&&)","cml/matrix/dynamic_allocated.tpp: operator=(matrix_type&&)"])
p("C23","Copies of owning vectors are independent; external vectors are views",
  "Copying an owning (fixed or dynamic) vector gives equal elements and later writes to either do not affect the other. Copy-constructing an external vector shares storage, copy-assigning it writes through to the viewed storage, and moving rebinds the view and nulls the source.",
  "for all sizes, contents and later write sequences",
  "independence quantifies over all later writes",
  ["cml/vector/fixed_compiled.tpp","cml/vector/dynamic_allocated.tpp","cml/vector/fixed_external.tpp","cml/vector/dynamic_external.tpp"])
# ---------------------------------------------------------------- matrices
p("C24","Row- and column-major storage index is a bijection",
  "For both layouts, element (i,j) of an R x C matrix is stored at its own linear index below R*C, and every index below R*C is some element: no two elements overlap, nothing is out of bounds, and reading after writing returns the written value at (i,j) and the old value elsewhere.",
  "for all R, C and all index pairs",
  "unbounded dimensions",
  ["cml/matrix/dynamic_allocated.h: s_access","cml/matrix/fixed_compiled.h: s_access","cml/matrix/dynamic_external.h: s_access"])
p("C25","Matrix assignment is independent of layout",
  "Assigning any matrix expression (no aliasing) to a row-major or a column-major matrix, or between the layouts, gives element (i,j) = source(i,j) for every in-range pair; zero(), identity() and fill(v) likewise give the documented elements for both layouts.",
  "for all sizes, layouts and element values",
  "the two nested loops run in different orders; equality has to hold for all sizes",
  ["cml/matrix/detail/copy.h: copy","cml/matrix/detail/generate.h: generate","cml/matrix/writable_matrix.tpp: assign, zero, identity, fill"])
p("C26","Element-list, array and pointer assignment is in row-major reading order",
  "Constructing or assigning a matrix from an element list, initializer list, 1D array or pointer sets element (i,j) to the (i*cols+j)-th value for both layouts; a list of a different length throws and leaves the matrix unchanged.",
  "for all sizes and values",
  "unbounded sizes",
  ["cml/matrix/writable_matrix.tpp: assign_elements, assign"])
p("C27","In-place transpose transposes",
  "M.transpose() turns element (i,j) into element (j,i), for fixed-size square matrices (pairwise swaps) and for resizable rectangular matrices (via a temporary); applying it twice restores the matrix.",
  "for all sizes and values",
  "unbounded dimension, in-place interleaving of swaps",
  ["cml/matrix/detail/transpose.h: transpose","cml/matrix/writable_matrix.tpp: transpose"])
p("C28","Resizing a matrix keeps the elements it has in common with the new shape",
  "After M.resize(r,c) element (i,j) is unchanged for i < min(r,rows), j < min(c,cols).",
  "for all old and new shapes",
  "holds for some shape changes (e.g. adding rows to a row-major matrix) and fails for others",
  ["cml/matrix/dynamic_allocated.tpp: resize"])
p("C29","Matrix, matrix-vector and vector-matrix products are the algebraic products",
  "For operands that contain no transpose of a non-square matrix of compile-time size (see C93), A*B, A*v and v*A have the mathematical elements and sizes, throw exactly when the inner sizes differ, and satisfy associativity, distributivity, identity and (A*B)^T = B^T*A^T; assigning the product to one of its operands is safe because the result is a temporary.",
  "for all shapes with a positive inner dimension and all values over a commutative semiring",
  "unbounded shapes",
  ["cml/matrix/matrix_product.tpp","cml/matrix/vector_product.tpp"])
p("C30","A product with inner dimension zero is the zero matrix",
  "Multiplying an m x 0 matrix by a 0 x n matrix gives the m x n zero matrix without touching memory outside the operands.",
  "for all m, n",
  "out-of-bounds reads do not reliably fail a test",
  ["cml/matrix/matrix_product.tpp","cml/matrix/vector_product.tpp"])
p("C31","Row, column and basis accessors address the right elements",
  "row(M,i), col(M,j) read row i / column j; set_row/set_col overwrite exactly that row/column and nothing else; basis_element(i,j) is the j-th component of basis vector i: element (i,j) for row-basis and (j,i) for column-basis matrices, and get/set_basis_vector round-trip in both.",
  "for all shapes, indices and values",
  "unbounded shapes and frame conditions",
  ["cml/matrix/row_node.tpp","cml/matrix/col_node.tpp","cml/matrix/writable_matrix.tpp: set_row, set_col, set_basis_element","cml/matrix/readable_matrix.tpp: basis_element","cml/mathlib/matrix/basis.tpp"])
p("C32","trace is the diagonal sum and is linear and cyclic",
  "trace(M) equals the sum of the diagonal of a square matrix of size n >= 1; trace(A+B), trace(sA), trace(A^T), trace(AB)=trace(BA) hold.",
  "for all n >= 1 and values",
  "unbounded dimension",
  ["cml/matrix/trace.tpp","cml/matrix/readable_matrix.tpp: trace"])
p("C33","2x2, 3x3, 4x4 determinants are exact",
  "determinant(M) for N = 2, 3, 4 (fixed or dynamic) equals the Leibniz determinant.",
  "for all matrices over a commutative ring",
  "polynomial identity in up to 16 variables",
  ["cml/matrix/detail/determinant.tpp: determinant(int_c<2..4>)"])
p("C34","The general determinant (N > 4 or N = 1) is the determinant",
  "determinant(M) for other N, computed by pivoted LU, equals the Leibniz determinant.",
  "for all N >= 1 and all matrices (exact arithmetic)",
  "unbounded dimension; the failing inputs have a negative diagonal pivot dominating its column",
  ["cml/matrix/detail/determinant.tpp: determinant, diagonal_product","cml/matrix/detail/lu.tpp: lu_pivot_inplace"])
p("C35","2x2, 3x3, 4x4 inverses are two-sided inverses",
  "For a matrix with non-zero determinant, M.inverse() / inverse(M) multiplied with M on either side is the identity; the only division performed is by the determinant.",
  "for all matrices over a field with non-zero determinant",
  "rational-function identity in up to 16 variables",
  ["cml/matrix/detail/inverse.h: inverse(int_c<2..4>)"])
p("C36","The general (pivoting) inverse is the inverse",
  "For N > 4 (or N = 1) and an invertible M, inverse(M)*M = M*inverse(M) = identity.",
  "for all N and all invertible matrices (exact arithmetic)",
  "the failing inputs depend on how pivots compare across elimination steps",
  ["cml/matrix/detail/inverse.h: inverse_pivot"])
p("C37","lu(M) factors M",
  "When no zero pivot is met, the packed result of lu(M) has unit lower factor L and upper factor U with L*U = M; no zero pivot is met iff the leading principal minors of order < N are non-zero; the factorisation is the unique one.",
  "for all N and all matrices over a field",
  "unbounded dimension, in-place overwriting",
  ["cml/matrix/detail/lu.tpp: lu_inplace","cml/matrix/lu.tpp: lu"])
p("C38","lu_pivot(M) factors a row permutation of M with the right sign",
  "When lu_pivot returns sign != 0, order is a permutation, sign is its parity, and L*U equals M with its rows permuted by order; all the divisors were non-zero and hence sign * product of the diagonal is the determinant of M.",
  "for all N >= 1 and all matrices over an ordered field, any non-negative epsilon",
  "unbounded dimension; permutation bookkeeping",
  ["cml/matrix/detail/lu.tpp: lu_pivot_inplace","cml/matrix/lu.tpp: lu_pivot"])
p("C39","lu_pivot reports sign 0 exactly for (numerically) singular matrices",
  "lu_pivot returns sign 0 iff M is singular (up to the epsilon threshold).",
  "for all N and matrices",
  "failing inputs are invertible matrices with a negative dominating pivot and singular matrices whose last pivot vanishes",
  ["cml/matrix/detail/lu.tpp: lu_pivot_inplace (line 53, 50, 63)"])
p("C40","lu_solve solves the system",
  "If LU is a packed factorisation with non-zero diagonal, lu_solve(LU,b) returns the unique x with (L*U) x = b; with the pivoted form lu_solve(lup,b) returns the unique x with M x = b when the diagonal is non-zero, and throws std::invalid_argument when sign = 0.",
  "for all N, factorisations and right-hand sides; x may alias b's storage",
  "unbounded dimension",
  ["cml/matrix/lu.tpp: lu_solve"])
p("C41","A matrix expression throws exactly when it is mis-sized, and otherwise every element is the mathematical value",
  "For every expression built with +, -, unary -, scalar * and /, transpose, hadamard, outer product, matrix/vector products, row, col (operands of cross and subvector as in C07; transposes of non-square matrices of compile-time size are not operands of sums and products, see C93; outer products have two operands of compile-time size or none, see C94): building it throws a size error (or std::invalid_argument, if the expression contains a row or column with a negative index) iff some operand is mis-sized, and otherwise every element read is in bounds and equals the mathematical value.",
  "for all expression trees, shapes and values",
  "infinitely many expression trees",
  ["cml/matrix/binary_node.tpp","cml/matrix/unary_node.tpp","cml/matrix/scalar_node.tpp","cml/matrix/transpose_node.tpp","cml/vector/outer_product_node.tpp","cml/matrix/size_checking.tpp"])
p("C42","Matrix equality is element-wise and an equivalence relation",
  "A == B for same-shaped matrices iff all elements agree; it is reflexive, symmetric and transitive and independent of layout; != is its negation.",
  "for all shapes and values",
  "unbounded shapes",
  ["cml/matrix/comparison.tpp"])
# ---------------------------------------------------------------- quaternions
p("C43","Quaternion product is the Hamilton product (reversed for negative cross)",
  "For positive_cross, p*q is the Hamilton product; for negative_cross it is the Hamilton product of q and p; hence it is associative, distributive, has the identity quaternion as unit, and norm(p*q) = norm(p)*norm(q).",
  "for all quaternions over a commutative ring and both orders/crosses",
  "polynomial identities",
  ["cml/quaternion/product.tpp: operator*"])
p("C44","conjugate and inverse invert the product",
  "q*conjugate(q) is the (real) norm, conjugate(p*q) = conjugate(q)*conjugate(p), and for non-zero q q*inverse(q) = inverse(q)*q = identity; the in-place methods agree with the expression forms; a well-typed expression over initialised quaternions fails iff it divides by a zero scalar or inverts the zero quaternion.",
  "for all quaternions over an ordered field",
  "polynomial identities, plus non-vanishing of the norm",
  ["cml/quaternion/conjugate_node.tpp","cml/quaternion/inverse_node.tpp","cml/quaternion/writable_quaternion.tpp: conjugate, inverse"])
p("C45","Quaternion results do not depend on the storage order",
  "Running the same operations on real_first and imaginary_first quaternions with equal real/imaginary parts gives equal real/imaginary parts (product, conjugate, inverse, sums, dot, norm, nested to any depth; the rotation conversions are stated for both orders in C53-C56).",
  "for all quaternions and operations",
  "quantifies over all values; each operation indexes with order-dependent constants",
  ["cml/quaternion/order_tags.h","cml/quaternion/product.tpp","cml/quaternion/conjugate_node.tpp"])
p("C46","Assigning between quaternions of different order keeps real and imaginary parts",
  "q_imaginary_first = q_real_first keeps the real part and the imaginary part.",
  "for all quaternions",
  "no test assigns across orders",
  ["cml/quaternion/writable_quaternion.tpp: assign(readable_quaternion)"])
p("C47","exp and log of quaternions invert each other",
  "For every quaternion with non-zero imaginary part, exp(q) = e^w (cos|v| + sin|v| v/|v|) and exp(log(q)) = q; for a purely real positive quaternion log is the real logarithm.",
  "for all quaternions",
  "transcendental identities over the reals; division by |v| in the degenerate case",
  ["cml/quaternion/writable_quaternion.tpp: log, exp"])
p("C48","Quaternion normalization and in-place product",
  "normalize() of a non-zero quaternion has norm one; p *= q stores the product p*q even when q is p.",
  "for all quaternions",
  "all values; aliasing",
  ["cml/quaternion/writable_quaternion.tpp: normalize, operator*="])
# ---------------------------------------------------------------- rotations
p("C49","World-axis rotation matrices form one-parameter rotation groups",
  "matrix_rotation_world_axis(m,axis,a) is orthogonal with determinant 1, fixes the axis, adds angles under concatenation, and throws std::invalid_argument unless 0 <= axis <= 2; in larger matrices everything outside the 3x3 block is the identity.",
  "for all axes, angles and both bases",
  "all real angles",
  ["cml/mathlib/matrix/rotation.tpp: matrix_rotation_world_axis","cml/mathlib/matrix/rotation.tpp: matrix_rotation_2D"])
p("C50","Axis-angle rotation matrices are rotations about the axis",
  "For a unit axis, matrix_rotation_axis_angle gives an orthogonal matrix of determinant 1 fixing the axis, equal to rotate_vector (Rodrigues) on every vector, with trace 1+2cos(angle), adding angles under concatenation.",
  "for all unit axes and angles",
  "trigonometric identities over the reals",
  ["cml/mathlib/matrix/rotation.tpp: matrix_rotation_axis_angle","cml/mathlib/vector/rotation.tpp: rotate_vector"])
p("C51","Euler-angle matrices are the concatenation of the axis rotations in the named order",
  "matrix_rotation_euler(m,a0,a1,a2,order) equals rotating about the first named axis by a0, then the second by a1, then the third by a2, for all 12 orders and both bases; hence it is orthogonal with determinant 1. (The header comment states the opposite product order.)",
  "for all orders and angles",
  "all real angles",
  ["cml/mathlib/matrix/rotation.tpp: matrix_rotation_euler"])
p("C52","matrix_rotation_euler_derivatives returns the partial derivative of matrix_rotation_euler",
  "Each element of the 3x3 block is the partial derivative of the corresponding element of matrix_rotation_euler with respect to the selected angle; repeated orders and bad axes throw.",
  "for all 6 non-repeating orders, all three angles, all real angle values",
  "a derivative is a limit statement",
  ["cml/mathlib/matrix/rotation.tpp: matrix_rotation_euler_derivatives"])
p("C53","Quaternion to matrix conversion is a homomorphism onto rotations",
  "For a unit quaternion matrix_rotation_quaternion is orthogonal with determinant 1, q and -q give the same matrix, the matrix of a product is the concatenation of the matrices, and it rotates vectors like q v q^-1.",
  "for all unit quaternions and both crosses and bases",
  "polynomial identities modulo the unit constraint",
  ["cml/mathlib/matrix/rotation.tpp: matrix_rotation_quaternion"])
p("C54","Quaternion builders agree with the matrix builders",
  "The matrix of quaternion_rotation_world_axis / _axis_angle / _euler equals matrix_rotation_world_axis / _axis_angle / _euler of the same arguments; the quaternions are unit.",
  "for all angles, unit axes and all 12 Euler orders",
  "half-angle identities over the reals",
  ["cml/mathlib/quaternion/rotation.tpp: quaternion_rotation_world_axis, quaternion_rotation_axis_angle, quaternion_rotation_euler"])
p("C55","Matrix to quaternion conversion inverts quaternion to matrix",
  "For a rotation matrix M quaternion_rotation_matrix gives a unit quaternion whose matrix is M, in every branch, never dividing by zero.",
  "for all rotation matrices",
  "the branch taken depends on the trace and diagonal; continuum of inputs",
  ["cml/mathlib/quaternion/rotation.tpp: quaternion_rotation_matrix"])
p("C56","Axis-angle extraction inverts axis-angle construction",
  "For a rotation matrix M matrix_to_axis_angle gives an axis and angle whose axis-angle matrix is M (generic, half-turn and identity branches), with angle in [0,pi]; quaternion_to_axis_angle does the same for unit quaternions, with angle in [0,2*pi]. Axis and angle of a built rotation are recovered.",
  "for all rotation matrices / unit quaternions (tolerance 0, or outside the tolerance band)",
  "branching on tolerance over a continuum",
  ["cml/mathlib/matrix/rotation.tpp: matrix_to_axis_angle","cml/mathlib/quaternion/rotation.tpp: quaternion_to_axis_angle"])
p("C57","Euler extraction inverts Euler construction",
  "For a rotation matrix M and any of the 12 orders, matrix_to_euler returns angles whose Euler matrix is M, including gimbal lock (tolerance 0, or outside the tolerance band); quaternion_to_euler does the same for unit quaternions, and away from gimbal lock the angles a matrix was built from are recovered.",
  "for all rotation matrices and orders",
  "continuum of inputs, gimbal-lock branch has measure zero",
  ["cml/mathlib/matrix/rotation.tpp: matrix_to_euler"])
# ---------------------------------------------------------------- geometry
p("C58","orthonormal_basis returns a right-handed orthonormal frame with the requested axis",
  "orthonormal_basis(align, reference, x,y,z, normalize, order) returns three mutually orthogonal unit vectors of determinant +1 whose order-selected first axis is align/|align|, for all 6 orders, whenever align and reference are not parallel; orthonormal_basis_2D likewise.",
  "for all orders and all non-parallel vectors",
  "all real vectors",
  ["cml/mathlib/vector/orthonormal.tpp","cml/mathlib/matrix/rotation.tpp: matrix_rotation_align, matrix_rotation_aim_at"])
p("C59","look_at is a rigid transform that puts the eye at the origin and the target on the view axis",
  "matrix_look_at maps the eye position to the origin and the target to (0,0,+d) (left-handed) or (0,0,-d) (right-handed), d the distance; its linear part is orthogonal with determinant 1 and up has zero x and non-negative y component.",
  "for all eye, target, up with up not parallel to the view direction",
  "all real vectors",
  ["cml/mathlib/matrix/transform.tpp: matrix_look_at"])
p("C60","matrix_concat composes transforms in argument order",
  "transform_point(concat(m1,m2),p) = transform_point(m2, transform_point(m1,p)) for affine matrices of either basis, and likewise for vectors and 4D transforms.",
  "for all affine matrices and points, both bases",
  "all values; the documentation states the opposite order",
  ["cml/mathlib/matrix/concat.tpp","cml/mathlib/vector/transform.tpp"])
p("C61","transform_point / transform_vector apply the affine map / its linear part",
  "transform_point(m,p) is linear part times p plus translation, transform_vector ignores the translation, in both bases and for both 3x4/4x3 and 4x4 matrices; transform_point_4D performs the perspective divide.",
  "for all matrices and points",
  "all values",
  ["cml/mathlib/vector/transform.tpp"])
p("C62","matrix_invert_RT inverts rigid transforms",
  "For a rigid transform (orthonormal linear part plus translation), matrix_invert_RT, _RT_only and _RT_only_2D produce the inverse: concatenating in either order is the identity.",
  "for all dimensions n (generic version), all rotations and translations, both bases",
  "unbounded dimension, in-place update order",
  ["cml/mathlib/matrix/invert.tpp"])
p("C63","Translation and scale builders act as named",
  "matrix_translation(t) maps p to p+t and fixes vectors; set/get translation round-trip and touch nothing else; matrix_scale maps p to the component-wise product and inverse scale undoes it for non-zero factors.",
  "for all values, both bases",
  "all values and frame conditions",
  ["cml/mathlib/matrix/translation.tpp","cml/mathlib/matrix/scale.tpp"])
p("C64","Orthographic projection maps the view box to the clip box",
  "matrix_orthographic maps left/right, bottom/top and near/far to the clip bounds affinely (z to [-1,1] or [0,1] according to z_clip; RH looks down -z) and so a point is in the view box iff its image is in the clip box.",
  "for all non-degenerate boxes and points, both handednesses and clip conventions",
  "all real values",
  ["cml/mathlib/matrix/projection.tpp: matrix_orthographic"])
p("C65","Perspective projection maps the view frustum to the clip box",
  "matrix_perspective with the perspective divide maps near and far planes to the clip z-bounds and the side planes to +-1; a point in front of the eye is in the frustum iff its image is in the clip box; depth order is preserved.",
  "for all frusta and points, both handednesses and clip conventions",
  "all real values",
  ["cml/mathlib/matrix/projection.tpp: matrix_perspective"])
p("C66","Frustum plane extraction characterises the visible set",
  "A point is on the non-negative side of all six planes returned by extract_frustum_planes iff its transformed homogeneous coordinates satisfy the clip inequalities; normalisation does not change any sign.",
  "for all projection matrices, points and both z-clip conventions",
  "all real matrices and points",
  ["cml/mathlib/frustum.tpp: extract_frustum_planes"])
p("C67","Coordinate conversions round-trip",
  "polar, cylindrical and spherical conversions satisfy cartesian -> curvilinear -> cartesian = identity (outside the tolerance band), for all axes and both spherical types; radius is non-negative and angles are in the documented ranges; bad axes throw.",
  "for all points, axes and spherical types",
  "trigonometric identities with branch cuts",
  ["cml/mathlib/coordinate_conversion.tpp"])
p("C68","Angle functions return the geometric angle",
  "unsigned_angle is symmetric, in [0,pi], scale invariant for positive factors and satisfies dot(a,b)=|a||b|cos; signed_angle_2D is in (-pi,pi], antisymmetric (off the branch cut) and rotating a by it gives the direction of b.",
  "for all non-zero vectors",
  "all real vectors",
  ["cml/mathlib/vector/angle.tpp"])
p("C69","Projections decompose a vector orthogonally",
  "project_to_vector(v1,v2) + project_to_hplane(v1, normal=v2) = v1 with orthogonal parts, both idempotent; perp rotates by a quarter turn; manhattan_distance is a metric.",
  "for all vectors of any dimension with non-zero (unit) target",
  "unbounded dimension",
  ["cml/mathlib/vector/misc.tpp"])
p("C70","rotate_vector is an isometry",
  "For a unit normal, rotate_vector preserves length and dot products, fixes the normal, adds angles and is inverted by the negated angle.",
  "for all vectors, unit normals and angles",
  "all real values",
  ["cml/mathlib/vector/rotation.tpp: rotate_vector"])
p("C71","Skew-symmetric matrix multiplication is the cross product",
  "Transforming u by matrix_skew_symmetric(v) gives cross(v,u), in both bases; the matrix is antisymmetric.",
  "for all vectors",
  "polynomial identity",
  ["cml/mathlib/matrix/misc.tpp: matrix_skew_symmetric"])
p("C72","Builders whose input aliases their output still use the original input",
  "matrix_linear_transform(m,l), matrix_affine_transform(m,l,t) give a matrix with linear part l even when l is m itself.",
  "for all matrices",
  "fails only under aliasing",
  ["cml/mathlib/matrix/transform.tpp: matrix_linear_transform, matrix_affine_transform"])
p("C73","Tag promotion is well defined",
  "The size, size-check, basis, layout and storage-selector promotion operators are commutative and idempotent; the basis and layout promotions have any_* as neutral element; size promotion is associative; storage-selector promotion picks the preferred operand (owning storage over views, compiled unless dynamic is requested).",
  "for all tags (complete finite domain)",
  "the domain is types; the complete table is covered",
  ["cml/common/promotion.h","cml/storage/promotion.h"])
p("C74","Random cone vectors lie in the cone",
  "random_unit(n, d, a, ...) for any values returned by the random source gives a unit vector whose angle with d is at most a; an angle outside (0, pi/2] throws std::invalid_argument.",
  "for all unit directions d, angles and all random draws",
  "quantifies over every random draw",
  ["cml/mathlib/random_unit.tpp"])
p("C75","quaternion_get_basis_vector returns the rotated axes",
  "quaternion_get_basis_vector(q,i) equals basis vector i of matrix_rotation_quaternion(q), and throws for i outside 0..2; for a unit q the three vectors are a right-handed orthonormal frame.",
  "for all unit quaternions",
  "polynomial identities",
  ["cml/mathlib/quaternion/basis.tpp"])
p("C76","Size checks partition outcomes: a run-time checked operation either throws with no effect or runs in bounds",
  "For element-wise vector assignment to a non-resizable vector: if the sizes differ a size error is thrown and memory is unchanged; otherwise exactly the destination elements change.",
  "for all sizes and memory contents",
  "frame condition over all memory",
  ["cml/vector/detail/check_or_resize.h","cml/vector/size_checking.tpp","cml/vector/writable_vector.tpp: assign"])
p("C77","Printing a vector never reads out of bounds",
  "operator<< on a vector reads only its elements, for every size.",
  "for all sizes including empty vectors",
  "out-of-bounds reads do not reliably fail a test",
  ["cml/util/vector_print.tpp"])
p("C78","Dynamic matrices keep buffer size equal to rows*cols under any history",
  "For any sequence of matrix resizes, copies and moves, the owned block always has exactly rows*cols elements, every in-range element access is in bounds, and all memory is released at the end.",
  "for every history",
  "unbounded histories",
  ["cml/matrix/dynamic_allocated.tpp"])

p("C79","cross accepts every pair of three-element operands",
  "cross(a,b) of any two vector expressions of size 3 succeeds and denotes the cross product, whatever mixture of named vectors, expressions and temporaries the operands are.",
  "for all operand expressions",
  "fails only for one value category and storage combination (dynamically sized temporaries), which a test has to think of",
  ["cml/vector/cross_node.tpp: vector_cross_node constructor","cml/vector/dynamic_allocated.tpp: move constructor"])
p("C80","Compile-time sizes of expressions agree with their run-time sizes",
  "For every vector or matrix expression that can be built, the array_size / array_rows / array_cols constants of its type equal size() / rows() / cols() if its size is a compile-time constant, and are -1 otherwise.",
  "for all expression trees and operand sizes",
  "infinitely many expression types",
  ["cml/vector/promotion.h","cml/matrix/promotion.h","cml/vector/subvector_node.h","cml/matrix/row_node.h","cml/matrix/col_node.h","cml/matrix/transpose_node.h"])
p("C81","The compile-time size of a basis vector node equals its run-time size",
  "basis(m,i).size() equals the array_size constant of its type, for every basis orientation and shape.",
  "for all fixed shapes and both basis orientations",
  "fails only for non-square column-basis matrices, a shape tests do not instantiate",
  ["cml/matrix/basis_node.h","cml/matrix/basis_node.tpp","cml/matrix/readable_matrix.tpp: basis_size"])

p("C82","A constructor of a dynamic vector or matrix that throws leaks nothing",
  "If constructing a dynamic vector or matrix (from a size, a copy, an expression, an array) throws, all memory is as it was before.",
  "for all sizes, arrays, expressions and failing allocations, from every reachable program state",
  "leaks are invisible to value-checking tests, and only one constructor has the flaw",
  ["cml/vector/dynamic_allocated.tpp: constructors","cml/matrix/dynamic_allocated.tpp: constructors"])
p("C83","Assignments that throw have no effect",
  "Every storage-changing statement on dynamic vectors and matrices (assignment of any expression, +=, -=, resize, list assignment, move, construction) that throws because of a size mismatch, a negative size or a failed allocation leaves every variable and every element as before (element operations do not throw).",
  "for all histories, statements, expressions and failing allocations",
  "quantifies over histories and over the point of failure",
  ["cml/vector/dynamic_allocated.tpp","cml/vector/writable_vector.tpp","cml/matrix/dynamic_allocated.tpp","cml/matrix/writable_matrix.tpp"])
p("C85","Any two quaternion expressions of the same order and cross can be multiplied",
  "operator* accepts any two quaternion expressions (variables, temporaries, conjugates, sums, ...) whose order and cross types agree.",
  "for all pairs of quaternion expressions",
  "concerns which programs compile; the tests only multiply operands of equal type",
  ["cml/quaternion/product.tpp: operator*"])
p("C86","Quaternion comparison is equality and a total order",
  "== holds exactly if the quaternions are equal; < is the lexicographic order of the stored elements; exactly one of <, ==, > holds; >=, <=, != are the negations.",
  "for all quaternion expressions over an ordered field and both orders",
  "order laws quantify over all values",
  ["cml/quaternion/comparison.tpp"])
p("C87","Quaternion compound assignment is the element-wise operation",
  "q += e, q -= e, q *= k and q /= k store q+e, q-e, k*q and q/k computed from the values before the statement, whatever e and k refer to.",
  "for all quaternions, expressions and scalars, including ones that refer to q",
  "aliasing of the scalar with an element of q is never tested",
  ["cml/quaternion/writable_quaternion.tpp: operator+=, operator-=, operator*=, operator/="])
p("C88","Quaternions are built from elements as documented",
  "Lists of four elements are taken in storage order; a 3-vector and a scalar become imaginary and real part whatever the order; identity() and zero() store 1 and 0; sources of another size are refused and change nothing.",
  "for all sources, orders and sizes",
  "all values and sizes, both orders",
  ["cml/quaternion/writable_quaternion.tpp: assign, assign_elements, zero, identity"])

p("C84","Constant vectors and list assignment",
  "zero(), fill(c), put(i,c) and cardinal(i) produce the zero, constant, updated and unit vector and change no other memory, also when the fill value is a reference into the vector itself; assigning an array or initializer list stores its elements in order, resizes a dynamic vector to the length of the list and is rejected without effect by other vectors of a different size.",
  "for all vectors of any size and storage, all values, indices and lists",
  "unbounded sizes and aliasing of the argument with the destination",
  ["cml/vector/writable_vector.tpp: zero, fill, put, cardinal, assign_elements"])

p("C89","Basis vectors are set and read without touching anything else",
  "matrix_set_basis_vector(s) and their transposed and 2D versions replace exactly the named column (row basis: row) of the linear part, the getters return it, in both bases; indices outside of the range, matrices that are too small and vectors of another size are rejected.",
  "for all matrices of sufficient size, both bases, all indices and vectors",
  "all sizes and values",
  ["cml/mathlib/matrix/basis.tpp"])
p("C90","Numeric constants and guarded scalar functions",
  "The literal constants agree with the numbers they name to twenty digits and with each other; deg and rad are inverse; acos_safe, asin_safe and sqrt_safe are defined for every argument, have the range of the function they guard and equal it at the clamped argument; inv_sqrt solves x r^2 = 1; the scalar lengths are Euclidean.",
  "for all real arguments",
  "all arguments outside and inside of the clamping range",
  ["cml/scalar/constants.h", "cml/scalar/functions.h: acos_safe, asin_safe, sqrt_safe, inv_sqrt, deg, rad, random_polar, length"])
p("C91","Matrices and quaternions print completely and unambiguously",
  "Printing a matrix of any size, also an empty one, reads every element exactly once and writes the rows in order, bracketed and separated by line ends, whatever the layout; two non-empty matrices print alike only if they are equal. A quaternion prints its real part first whatever its storage order.",
  "for all matrix expressions of any dimensions and all quaternion expressions of both orders",
  "unbounded dimensions, including zero",
  ["cml/util/matrix_print.tpp", "cml/util/quaternion_print.tpp"])
p("C92","Storage promotion is a semilattice operation",
  "Promoting two storage types never fails, gives one of them unless two user allocators conflict, keeps a user allocator if there is no conflict, and is idempotent, commutative and associative, so that the storage of an expression does not depend on how it is grouped.",
  "for all pairs and triples of storage types, all allocators and size kinds",
  "unboundedly many user allocators; tests instantiate only the default one",
  ["cml/storage/promotion.h", "cml/storage/allocated_selector.h: storage_disambiguate", "cml/storage/type_util.h"])
p("C93","Transposes of fixed-size matrices can be used in sums and products",
  "transpose(A)+B, transpose(A)-B, transpose(A)*B, transpose(A)*v and v*transpose(A) of fixed-size matrices and vectors of fitting dimensions have the mathematical dimensions and elements and can be assigned to a fixed-size or dynamic matrix of their dimensions.",
  "for all fixed dimensions and values",
  "square matrices work, and only non-square fixed-size operands show the wrong storage type; reads outside of the operands do not reliably fail a test",
  ["cml/matrix/transpose_node.h: matrix_traits<matrix_transpose_node>", "cml/matrix/promotion.h", "cml/matrix/matrix_product.tpp", "cml/matrix/vector_product.tpp", "cml/matrix/binary_node.h"])
p("C94","Outer products of a fixed-size and a dynamic vector can be assigned to any matrix of their dimensions",
  "outer(v,w) of one fixed-size and one dynamically sized vector has v.size() rows and w.size() columns, the elements v[i]*w[j], and can be assigned to a fixed-size or dynamic matrix of these dimensions.",
  "for all sizes and values",
  "mixed operand kinds times all sizes",
  ["cml/vector/outer_product_node.h", "cml/vector/outer_product_node.tpp", "cml/matrix/promotion.h: matrix_outer_product_promote", "cml/matrix/size_checking.tpp"])
p("C95","Inner products are backward stable in rounded arithmetic",
  "The value computed by dot(a,b) in rounded arithmetic is the exact inner product of b with a vector that differs from a in each element by a relative error of at most gamma_n = nu/(1-nu); the absolute error is at most gamma_n times the sum of |a_i||b_i|, and length_squared has relative error at most gamma_n and is never negative.",
  "for all vectors of every size n with nu < 1 and every rounding with unit roundoff u",
  "unbounded sizes, every rounding of every operation",
  ["cml/vector/dot.tpp", "cml/vector/readable_vector.tpp: length_squared"])
p("C96","Matrix products have the standard componentwise error",
  "Every element of the matrix product, matrix-vector and vector-matrix product computed in rounded arithmetic differs from the exact product by at most gamma_n times the product of the absolute values, with n the inner dimension.",
  "for all dimensions, layouts and element values, every rounding",
  "unbounded dimensions; all roundings",
  ["cml/matrix/matrix_product.tpp", "cml/matrix/vector_product.tpp"])
p("C97","LU factorization is backward stable in rounded arithmetic",
  "If lu (or lu_pivot) succeeds in rounded arithmetic, the computed factors L and U multiply to a matrix that differs from A (with permuted rows) by at most gamma_n |L||U| in each element; it fails exactly when a computed pivot vanishes (is below the tolerance).",
  "for all square matrices of every size, every rounding",
  "unbounded dimension, all pivot sequences, all roundings",
  ["cml/matrix/detail/lu.h: lu_inplace, lu_pivot_inplace"])
p("C98","Solving with the LU factors is backward stable",
  "The vector computed by lu_solve, and by lu followed by lu_solve, in rounded arithmetic is the exact solution of a nearby system: A' x = b with |A' - LU| at most gamma-bounded by |L||U| (gamma_{3n+1} |L||U| from the original matrix); likewise lu_pivot_solve.",
  "for all square systems of every size, every rounding",
  "unbounded dimension, all roundings",
  ["cml/matrix/lu.tpp: lu_solve, lu_pivot_solve", "cml/matrix/detail/lu.h"])
p("C99","Rounding error of an arbitrary vector or matrix expression",
  "For every expression built from the operators of the library, each element computed in rounded arithmetic, and each element stored by x = e, differs from the exact value by at most gamma_k times the magnitude of the element, where the magnitude is the expression with all terms taken positive and k is the number of roundings on the longest path; the rounded program rejects an expression exactly if it is ill-sized.",
  "for all expressions of any depth and size, all values, every rounding",
  "all expression shapes, all roundings",
  ["cml/vector/*_node.tpp", "cml/matrix/*_node.tpp", "cml/vector/writable_vector.tpp: assign", "cml/matrix/writable_matrix.tpp: assign", "cml/matrix/matrix_product.tpp", "cml/matrix/vector_product.tpp"])
p("C100","Determinants in rounded arithmetic",
  "The closed-form determinants of 2x2, 3x3 and 4x4 matrices computed in rounded arithmetic differ from the exact determinant by at most gamma_k (k = 2, 5, 9) times the determinant expansion with all terms taken positive; for every other size the result is, up to a relative error gamma_n, the determinant of a matrix that differs from A by at most gamma_n |L||U|, or zero if the decomposition gave up.",
  "for all square matrices of every size, every rounding",
  "unbounded dimension, all roundings, cancellation",
  ["cml/matrix/detail/determinant.tpp"])
p("C101","Closed-form inverses in rounded arithmetic",
  "If the determinant of a 2x2, 3x3 or 4x4 matrix exceeds its own rounding error bound, its inverse is computed in rounded arithmetic without division by zero, and every element has an error bounded by gamma_k plusDet|A| / |det A| relative plus gamma_l plusDet|minor| / |det A| absolute.",
  "for all matrices of these sizes, every rounding",
  "all values and roundings, ill-conditioned matrices",
  ["cml/matrix/detail/inverse.tpp"])
p("C102","Quaternion arithmetic in rounded arithmetic",
  "Each element of a product of quaternions has an error of at most gamma_4 times the sum of the absolute values of its terms; the norm has relative error gamma_4, each element of the inverse of a nonzero quaternion relative error gamma_10; any expression of sums, differences, scalar products and quotients, conjugates and products differs from its exact value by at most gamma_k times the combined lengths of its operands, in both orders and crosses.",
  "for all quaternions, all inverse-free expressions of any depth, every rounding",
  "all expression shapes, all roundings",
  ["cml/quaternion/product.tpp", "cml/quaternion/dot.tpp", "cml/quaternion/readable_quaternion.tpp: norm", "cml/quaternion/inverse_node.tpp", "cml/quaternion/*_node.tpp"])
p("C103","External matrices are views",
  "Constructing an external matrix from a pointer fails exactly for negative dimensions; otherwise element (i,j) is the memory cell with the storage index of (i,j), and a view of a two-dimensional array a has the elements a[i][j] (row-major) or a[j][i] (column-major). Assigning to a view changes what every other object over the same memory reads. resize succeeds exactly for non-negative dimensions with the same number of elements and keeps every element at its place in memory; move and swap rebind the views without touching memory, self-move loses the view. Assigning an expression to a view of run-time dimensions throws without effect if the number of elements differs and otherwise takes dimensions and elements of the expression and changes no other memory.",
  "for all states, dimensions, layouts, offsets and expressions",
  "aliasing between arbitrary views, both layouts, all sizes",
  ["cml/matrix/dynamic_external.tpp", "cml/matrix/fixed_external.tpp", "cml/matrix/detail/check_or_resize.h"])
p("C104","Compound matrix assignment of operands of different dimensions reports a size error and changes nothing",
  "M += N and M -= N add or subtract element by element if the dimensions agree; otherwise a size error is reported and M keeps its value.",
  "for all matrices, expressions and storage kinds",
  "all pairs of dimensions and storage kinds; the failure needs resizable destinations",
  ["cml/matrix/writable_matrix.tpp: operator+=, operator-=", "cml/matrix/detail/apply.h", "cml/matrix/detail/check_or_resize.h", "cml/matrix/dynamic_allocated.tpp: resize", "cml/matrix/dynamic_external.tpp: resize"])
p("C105","Mathlib functions reject arguments of the wrong size",
  "Every function of the mathlib that builds, reads or transforms a matrix or vector throws the size error of the first failing check if a matrix is too small for the requested linear, affine or projective part or a vector does not have the required number of elements; no element outside of an argument is accessed.",
  "for all matrix and vector sizes, both bases, fixed and dynamic arguments",
  "all sizes; a missing check is an out-of-bounds access that tests with correct sizes do not see",
  ["cml/mathlib/matrix/translation.tpp", "cml/mathlib/matrix/scale.tpp", "cml/mathlib/matrix/transform.tpp", "cml/mathlib/matrix/projection.tpp", "cml/mathlib/matrix/basis.tpp", "cml/mathlib/matrix/rotation.tpp", "cml/mathlib/matrix/misc.tpp"])
p("C106","A matrix function that throws leaves its argument as it was",
  "If a function of the mathlib that writes to a matrix throws, the matrix has the value it had before the call.",
  "for all functions, matrices and arguments",
  "exceptions at every point of every function, all sizes",
  ["cml/mathlib/matrix/translation.tpp", "cml/mathlib/matrix/scale.tpp", "cml/mathlib/matrix/transform.tpp", "cml/mathlib/matrix/projection.tpp", "cml/mathlib/matrix/basis.tpp", "cml/mathlib/matrix/rotation.tpp", "cml/mathlib/matrix/invert.tpp", "cml/mathlib/matrix/misc.tpp"])
p("C107","The limited range of int does not matter for matrices of at most INT_MAX elements",
  "For matrices with at most INT_MAX elements no intermediate result of the size and index computations of element access, construction, resize, reshaping of views, destruction, assignment of any expression and assignment from a pointer leaves the range of int, so all of them behave as with unbounded integers, whatever the compiler makes of overflow.",
  "for all states, dimensions, layouts, expressions and every behaviour of int arithmetic that is exact in range",
  "the largest sizes cannot be tested; every intermediate result must be bounded",
  ["cml/matrix/dynamic_allocated.tpp", "cml/matrix/dynamic_allocated.h: s_access", "cml/matrix/dynamic_external.tpp", "cml/matrix/writable_matrix.tpp: assign", "cml/vector/detail/combined_size_of.h"])
p("C108","resize to any non-negative dimensions gives a usable matrix or throws, and every element of a view of existing memory can be accessed",
  "resize(r, c) with non-negative int arguments returns with a matrix of these dimensions all of whose elements exist, or throws; get(i, j) of a view returns the element if it exists in memory.",
  "for all states and dimensions",
  "needs sizes beyond INT_MAX",
  ["cml/matrix/dynamic_allocated.tpp: resize, resize_fast", "cml/matrix/dynamic_allocated.h: s_access", "cml/matrix/dynamic_external.h: s_access"])
p("C109","inverting a matrix in memory replaces exactly its elements by those of the inverse",
  "M.inverse() on a matrix in fixed, owned or foreign memory (any layout and offset) stores the result of the value-level algorithm in M and changes no other object and no other memory; 2x2, 3x3 and 4x4 matrices with nonzero determinant are replaced by their inverse, determinant zero is a division by zero, non-square matrices are rejected unchanged; the free function inverse(M) leaves its argument and all existing memory unchanged.",
  "for all states, matrices, kinds of storage, layouts and element values",
  "tests compare the elements of one or two small matrices with fixed layout and do not look at neighbouring memory",
  ["cml/matrix/detail/inverse.h", "cml/matrix/writable_matrix.tpp: inverse", "cml/matrix/inverse.h"])
p("C110","LU decompositions and determinants of matrices in memory",
  "lu_inplace and lu_pivot on a matrix in memory leave the packed triangular factors of the (row-permuted) matrix in its elements and touch nothing else; the determinant of a matrix with run-time dimensions is computed without leaving any change in memory, including the release of the temporary copy; non-square matrices are rejected.",
  "for all states, matrices, layouts, positive pivot tolerances and element values",
  "the frame (everything else unchanged, nothing leaked) concerns all memory; all sizes",
  ["cml/matrix/detail/lu.tpp: lu_inplace, lu_pivot_inplace", "cml/matrix/lu.tpp: lu, lu_pivot", "cml/matrix/detail/determinant.tpp"])
p("C111","lu_solve may solve in place and keeps the decomposition",
  "lu_solve(LU, x, b) with operands in memory stores the unique solution of L U x = b in x, also if x and b are the same vector or overlap in any way, and changes nothing but x, provided that LU does not overlap x (otherwise a wrong answer is possible); a zero on the diagonal is a division by zero; operands that do not fit are rejected unchanged.",
  "for all states, sizes, layouts and overlaps of x and b",
  "tests never pass overlapping operands",
  ["cml/matrix/lu.tpp: lu_solve"])
p("C112","programs over dynamic vectors and matrices compute what the mathematics says",
  "A program made of any sequence of definitions, copies, moves, resizes, assignments of arbitrary expressions, compound assignments, fills, element writes and destructions of dynamic vectors and matrices, each used as documented, ends with every variable holding exactly the mathematical result, or stops with bad_alloc in the state after the statements executed so far; statements whose sizes do not fit are rejected by an exception with all variables unchanged; when all variables are gone no memory is left.",
  "for all programs of any length, all expressions, sizes and values, and every pattern of failing allocations",
  "programs and their interplay (aliasing, reuse of memory after moves and resizes, exceptions at any allocation) cannot be enumerated",
  ["cml/vector/dynamic_allocated.tpp", "cml/matrix/dynamic_allocated.tpp", "cml/vector/writable_vector.tpp", "cml/matrix/writable_matrix.tpp"])
p("C113","An expression object may be stored and evaluated later",
  "An expression object (auto e = ...;) refers to the named operands it was built from and owns its temporaries; products are computed when they are written. Evaluated later, after any program in between, it has the size it was built with and the elements that the expression has with the current values of the operands, products keeping their old value, provided that the operands outside of products still exist and have kept their sizes; statements that use the stored object have the effect of the same statement with this expression. A stored product is independent of its operands. Sizes are not compared again: a longer second operand is silently truncated, a shorter or destroyed one is undefined behaviour.",
  "for all vector and matrix expressions of any shape, all states, all programs between construction and evaluation",
  "the tests evaluate every expression in the statement that builds it",
  ["cml/vector/binary_node.h", "cml/vector/unary_node.h", "cml/vector/scalar_node.h", "cml/vector/cross_node.h", "cml/vector/subvector_node.h", "cml/matrix/binary_node.h", "cml/matrix/row_node.h", "cml/matrix/transpose_node.h", "cml/vector/outer_product_node.h", "cml/common/type_util.h: actual_operand_type_of"])
p("C114","Inside the tolerance band extraction is off by at most a multiple of the tolerance",
  "The tolerance arguments of matrix_to_axis_angle, quaternion_to_axis_angle, matrix_to_euler and quaternion_to_euler select the formulas for singular rotations. For every rotation and every non-negative tolerance the functions succeed, and the rotation described by the result differs from the given one by at most 3/2 of the tolerance (axis and angle of a matrix), twice the tolerance (Euler angles) in each element of the matrix, and by twice the tolerance times the length of the rotated vector (axis and angle of a quaternion). The half-turn formula returns an axis of length one up to tolerance^2/8. The factor two is attained.",
  "for all rotation matrices and unit quaternions, all orders, all tolerances >= 0",
  "the tests use exact rotations and the default tolerance; the band is a thin set of a continuum",
  ["cml/mathlib/matrix/rotation.tpp: matrix_to_axis_angle, matrix_to_euler","cml/mathlib/quaternion/rotation.tpp: quaternion_to_axis_angle, quaternion_to_euler"])
p("C115","Length and normalization in rounded arithmetic",
  "With rounded operations (relative error at most u each, the square root included) length() of a vector with n elements has a relative error of at most gamma_{n+1} and is zero only for the zero vector; every element of normalize() has a relative error of at most gamma_{2n+2}, the exact length of the computed result differs from one by at most gamma_{2n+2}, and normalizing again changes no element by more than gamma_{6n+6}. For quaternions the bounds are gamma_5 and gamma_10. In place nothing but the object changes.",
  "for all n, vectors and quaternions of rounded numbers, all roundings with 4(n+1)u <= 1",
  "tests compare with a fixed tolerance for a few vectors of length two to four",
  ["cml/vector/readable_vector.tpp: length, normalize","cml/vector/writable_vector.tpp: normalize","cml/quaternion/readable_quaternion.tpp: length, normalize","cml/quaternion/writable_quaternion.tpp: normalize","cml/scalar/traits.h: sqrt"])
p("C116","Move assignment of objects with member storage copies all elements",
  "x = std::move(y) for two fixed-size vectors or two fixed-size matrices of the same type, and x = a * b where the product has the type of the fixed-size matrix x (so that the move assignment is chosen), give x all elements of the source and change no other memory; y may be x itself. The code meets this for vectors and for row-major or square matrices. Its loop subscripts the nested array m_data[i][j] for all i < R, j < C whatever the layout is, so for column-major matrices that are not square every such move is undefined behaviour; if the array is treated as one piece of memory, R > C goes behind the end of the object and 2 <= R < C leaves the last elements at their old value.",
  "for all dimensions, layouts, element values and both readings of array subscripts",
  "no test moves a column-major matrix that is not square; what an out-of-bounds subscript does differs between compilers",
  ["cml/matrix/fixed_compiled.tpp:85-95", "cml/matrix/fixed_compiled.h:234-239", "cml/vector/fixed_compiled.tpp:77-84", "cml/matrix/matrix_product.tpp"])
p("C117","Raw access, iteration and construction from pointers respect the layout",
  "For every vector, a loop from begin() to end() visits exactly its elements in order; for every matrix it visits them row by row if the layout is row-major and column by column if it is column-major. assign(ptr) and the constructors that take a pointer store the value at position k into element k of a vector and into element (k / cols, k % cols) of a matrix of either layout, provided the source does not start before an overlapping destination, and change no other memory. So vector(v.data(), v.size()) is a copy of v, views of M.data() of the same layout show M forever, views of the opposite layout with exchanged dimensions show the transpose forever, and x.assign(y.data()) reproduces y. The last claim is false for column-major y: the transpose arrives, and M.assign(M.data()) destroys M. random(low, high) gives every element its own draw in storage order. reset() and move construction of views leave the memory alone and a null view.",
  "for all storages, sizes, layouts, pointers and memory contents; for views, for all later memory contents",
  "tests read data() of row-major matrices of one size; overlap and layout mismatches only show in particular combinations",
  ["cml/vector/dynamic_allocated.tpp:64-132", "cml/matrix/dynamic_allocated.tpp:82-144", "cml/vector/writable_vector.tpp:192-204", "cml/vector/writable_vector.tpp:415-422", "cml/matrix/writable_matrix.tpp:186-200", "cml/matrix/writable_matrix.tpp:448-456", "cml/vector/dynamic_external.tpp:44-87", "cml/matrix/detail/generate.h"])
p("C118","Programs that use the linear algebra compute what the mathematics says",
  "C112 extended: programs may in addition use zero, cardinal, minimize and maximize, identity, set_row and set_col, transpose in place, inverse in place and into a new matrix (up to 4x4), lu, lu_solve with either decomposition, lu_pivot and determinant. Each statement used as documented gives the variable it names the mathematical result (the inverse, the unique packed factors, the unique solution, the determinant) and changes no other variable; its temporaries are destroyed on every path. If memory runs out nothing has changed; matrices that are not square, sizes that do not fit and systems without a usable decomposition are rejected with an exception and nothing has changed. So lu followed by lu_solve solves the system, m times inverse(m) is the identity matrix, and two transposes cancel.",
  "for all programs of any length over these statements, all sizes, contents, ordered fields and patterns of failing allocations",
  "programs cannot be enumerated; exceptions between the allocation and the destruction of a temporary are not exercised by any test",
  ["cml/matrix/lu.tpp", "cml/matrix/inverse.h", "cml/matrix/detail/transpose.h", "cml/matrix/writable_matrix.tpp", "cml/matrix/readable_matrix.tpp", "cml/vector/writable_vector.tpp"])
p("C119","Rotations in rounded arithmetic drift by a bounded distance",
  "With rounded operations the matrix of a quaternion q with squared norm N differs in every element from the rotation v -> q v q^-1 by at most gamma_4 (1+2N) + 2|N-1|; transforming a vector (point) has a componentwise error of at most gamma_3 |M||v| (gamma_4 (|M||v|+|t|)), so that transforming by the matrix of a quaternion is rotating up to an explicit bound. The product of any number k+1 of n x n matrices, each within eta of an orthogonal one, evaluated from left to right, stays within (sqrt n + e)(1 + eta + gamma_n (sqrt n + eta))^k - sqrt n of the exact product, which is orthogonal; the product of k+1 quaternions within eta of unit quaternions, as an expression or by repeated q *= p, stays within (1 + e)((1 + eta)(1 + gamma_8))^k - 1 of the exact unit quaternion.",
  "for all quaternions, matrices, vectors, numbers of factors, sizes n, deviations eta and e, and roundings with n u < 1 and 8 u < 1",
  "drift accumulates over long chains of products; tests multiply two or three rotations and compare with a fixed tolerance",
  ["cml/mathlib/matrix/rotation.tpp", "cml/mathlib/vector/transform.tpp", "cml/matrix/matrix_product.tpp", "cml/quaternion/product.tpp", "cml/quaternion/writable_quaternion.tpp"])
p("C120","Comparison is equality of elements and an order, also with NaN",
  "For floating-point operands a == b is true exactly if the sizes agree and all corresponding elements are equal numbers, and < is a strict order. This holds if no element is NaN. With NaN it is false: for vectors and matrices every position with a NaN on either side counts as equal, so a vector of NaNs equals every vector of its size, == is not transitive and < has cycles; a quaternion with a NaN is different from itself although it is <= and >= itself and the vector of its elements equals itself. minimize and maximize keep a NaN of the destination and ignore one of the argument; in_range is true for NaN, clamp returns it, and index_of_max can return the index of a smaller number.",
  "for all sizes, expressions and contents over any linear order extended by NaN",
  "no test compares NaN; that < has cycles needs three particular vectors",
  ["cml/vector/comparison.tpp:13-83", "cml/matrix/comparison.tpp:13-37", "cml/quaternion/comparison.tpp:13-90", "cml/vector/writable_vector.tpp: minimize, maximize", "cml/scalar/functions.h: clamp, in_range, index_of_max"])
p("C121","Angles of integral type mean radians like all others",
  "The functions that take an angle (rotation builders of matrices and quaternions, rotate_vector, the conversions to Cartesian coordinates) give for an integer n what they give for the floating-point angle n. This holds for n = 0. For every other integer it is false: the traits of integral types truncate cosine and sine to zero, so that the matrices are singular (zero, or the projection onto the axis), rotate_vector drops the part orthogonal to the axis, points end up in the origin or on the axis, and the quaternions are the identity for -1 and 1 and zero beyond; deg multiplies integers by 57 and rad makes them zero.",
  "for all integers, matrices, vectors, axes, orders and bases, and for any library functions whose cosine and sine of that angle are strictly between -1 and 1",
  "tests use floating-point angles; that no integer but zero works needs the irrationality of pi",
  ["cml/scalar/traits.h:26-98", "cml/scalar/constants.h:25-56", "cml/mathlib/matrix/rotation.tpp:22-229", "cml/mathlib/quaternion/rotation.tpp:20-182", "cml/mathlib/vector/rotation.tpp:15-34", "cml/mathlib/coordinate_conversion.tpp:17-103", "cml/scalar/functions.h: deg, rad"])
p("C122","Vectors and matrices of integers",
  "determinant, inverse, length and normalize of integer vectors and matrices are right as far as the result is an integer. The determinant is exact for 2x2 to 4x4; length is the square root rounded down. The inverse of a 2x2 to 4x4 matrix is right exactly if the determinant is 1 or -1, and each element is off by less than one otherwise; a singular matrix divides by zero. False beyond: the determinant of a 5x5 matrix and the inverse of a 5x5 matrix of determinant 1 can be wrong, and normalize never gives the unit vector in the direction of a vector with two or more nonzero elements (right for multiples of coordinate vectors).",
  "for all integer matrices and vectors of all contents (sizes 2 to 4 for the closed forms, any size for vectors)",
  "tests use floating-point matrices; the condition for exactness is about all integer matrices",
  ["cml/scalar/traits.h:50-53", "cml/matrix/detail/determinant.tpp", "cml/matrix/detail/inverse.h", "cml/vector/readable_vector.tpp:65-89", "cml/vector/writable_vector.tpp:104-109"])
p("C123","Arguments that refer to the object being written have their values before the call",
  "v.set(v[1], v[0]), m.set(...) with elements of m, and the functions that build a transform in m from scalars or vectors (set_basis_vector(s), set_translation, translation, scale, uniform_scale, inverse_scale, skew_symmetric, rotations, affine_transform) give the same result for elements, rows or columns of the target as for copies of them. This holds exactly where nothing is read after it has been stored: inverse_scale, rotation_world_axis and a normalized axis of affine_transform use temporaries, a basis vector can be copied to another, and set is right iff no argument refers to an element stored before it with a different value. False otherwise: set stores in turn; a dynamic vector that set resizes reads its arguments from freed memory; scale, translation, rotation_axis_angle and rotation_align see the identity matrix and skew_symmetric the zero matrix instead of the target.",
  "for all sizes, contents, argument lists and positions of the references",
  "tests pass constants or other objects; no test passes an element of the target",
  ["cml/vector/writable_vector.tpp:229-247", "cml/matrix/writable_matrix.tpp:22-49", "cml/mathlib/matrix/basis.tpp", "cml/mathlib/matrix/translation.tpp", "cml/mathlib/matrix/scale.tpp", "cml/mathlib/matrix/misc.tpp:31-57", "cml/mathlib/matrix/rotation.tpp:70-166,378-396", "cml/mathlib/matrix/transform.tpp:86-99"])
p("C124","Output arguments may refer to the object that is converted",
  "cartesian_to_polar / cylindrical / spherical, matrix_to_euler, matrix_to_axis_angle, quaternion_to_axis_angle, matrix_get_translation, matrix_get_(transposed_)basis_vectors and orthonormal_basis store in their output arguments the values for the object as it was before the call and change nothing else, wherever the outputs are. True for outputs that avoid the elements read after them: for orthonormal_basis always, for a theta in v, for an axis over the imaginary part of q, for cartesian_to_spherical into v itself exactly if phi goes to the element along the axis (so cartesian_to_spherical(v, axis, type, v[0], v[1], v[2]) is right for axis 2 only). False otherwise: cartesian_to_polar(v, v[0], v[1]) is right only on the positive first axis or below the tolerance; the cylindrical coordinates cannot be stored in the vector itself in any order; matrix_to_euler into the first row, an axis over the first row, and an in-place transposition by matrix_get_transposed_basis_vectors give wrong results.",
  "for all contents, sizes, axes, orders, tolerances and placements of the outputs",
  "tests use separate variables for the outputs",
  ["cml/mathlib/coordinate_conversion.tpp:113-234", "cml/mathlib/matrix/rotation.tpp:409-561", "cml/mathlib/quaternion/rotation.tpp:225-248", "cml/mathlib/matrix/translation.tpp:142-154", "cml/mathlib/matrix/basis.tpp:299-353", "cml/mathlib/vector/orthonormal.tpp:48-79"])
p("C125","Expressions over different element types have the value of exact arithmetic where it fits",
  "An element-wise expression over vectors and scalars of different arithmetic types has as element type the common type of its operands (floating point as soon as one operand is), every element is a value of this type, and the elements are those of exact arithmetic provided every intermediate result fits into the type of its node; sums, differences and products of integers of at least b bits are right modulo 2^b in any case; quotients of integers are rounded towards zero. Assigning to a vector stores exactly what fits; a floating-point expression assigned to a vector of integers, also by *=, /=, += and -=, is rounded towards zero element by element and undefined if one element does not fit. Consequences: v *= 0.5 followed by v *= 2.0 restores exactly the even integers; for unsigned elements of 8 or 16 bits a - b and a + (-b) differ exactly where the difference is negative.",
  "for all expressions, element types, sizes and values",
  "tests use one or two combinations of types with small values",
  ["cml/scalar/binary_ops.h:13-32", "cml/scalar/unary_ops.h:14-29", "cml/scalar/promotion.h:12-22", "cml/vector/binary_node.h:25-27", "cml/vector/scalar_node.h:24-26", "cml/vector/unary_node.h:20-22", "cml/vector/writable_vector.tpp:306-379", "cml/vector/fixed_compiled.tpp:113-119"])
p("C126","Arithmetic on unsigned elements is always defined, and dot and matrix products agree",
  "dot(x, y) and an element of a matrix product over integral elements, if defined, are the sum of the products modulo the range of the common type, so that they agree although dot converts after every step and the matrix product only at the end; both are exact if all products and partial sums fit (into the common type for dot, into the type of the products for the matrix product). Both are always defined for unsigned elements of at least 32 bits; dot is for equal types of 8 bits and signed 16 bits. False: dot of unsigned elements of 16 bits is undefined exactly if one product exceeds the largest int; a matrix product of unsigned bytes is undefined exactly if the sum does.",
  "for all sizes, element types and values",
  "needs overflow in particular types; undefined behaviour is not visible in test results",
  ["cml/vector/dot.tpp:14-27", "cml/matrix/matrix_product.tpp:30-34", "cml/matrix/vector_product.tpp:29-33,52-56", "cml/scalar/binary_ops.h:13-21"])
p("C127","Comparison of vectors of different element types compares the numbers",
  "== on vectors of different element types holds exactly if the elements are equal as numbers, and < is the lexicographic order of the numbers. True if one type is floating point, if the type in which the elements are compared has a sign, or if no element is negative. In general integral vectors are compared after reduction to the type of the comparison, so that {-1} of int equals {4294967295} of unsigned and is not less than {1} of unsigned.",
  "for all sizes, element types and values",
  "tests compare vectors of one element type",
  ["cml/vector/comparison.tpp:14-59"])
p("C128","wrap and map_range mean for integral types what they mean for real ones",
  "For an integral type T, wrap(v,min,max) is the representative of v in [min,max), and map_range is the affine map between the ranges. wrap: true if v-min and max-min fit into T and have at most 53 bits. Otherwise false: for int it is defined exactly if both differences fit; for unsigned types of up to 32 bits a value below min gives a result in the range that is congruent to it exactly if max-min divides 2^bits; for narrow types max-min itself is reduced to T; for 64-bit types the differences are rounded to double. map_range: the ends go to the ends, but every value between them goes to min2, so that it is exact only at the ends or if min2 = max2.",
  "for all integral types and values",
  "tests use floating-point arguments",
  ["cml/scalar/functions.h:31-57", "cml/scalar/traits.h:43-46"])
p("C129","Projections with integral bounds are those of the same real bounds",
  "matrix_orthographic and matrix_perspective, also by width and height or by field of view, give for integral bounds the projection of the box or frustum with these bounds. For the six bounds this holds exactly if all three sides have length one: the reciprocals of the sides are computed in the type of the bounds, so that along every longer side all points get the clip coordinate zero (e.g. matrix_orthographic_RH(m, 0, 640, 480, 0, -1, 1, z_clip_neg_one)). With width and height it is never right: less than two divides by zero, everything else sends all points to x = y = 0; likewise any field of view.",
  "for all integral bounds, matrices, orientations and clip ranges, and any tangent function",
  "tests pass floating-point bounds; a matrix of zeros is not detected by the type system",
  ["cml/mathlib/matrix/projection.tpp:21-231", "cml/scalar/traits.h:65-68"])
p("C130","The variants of the projections agree",
  "The _LH and _RH functions are mirror images in the plane z = 0 (the right-handed one maps a point to where the left-handed one maps its mirror image), for orthographic and perspective projections by bounds, by width and height and by field of view; the versions with width and height are those of the centred box, and determine width and height; xfov and yfov describe the same projection exactly if tan(xfov/2) = aspect * tan(yfov/2).",
  "for all matrices of at least 4x4, bounds, fields of view, aspect ratios and clip ranges",
  "tests compare one matrix per function",
  ["cml/mathlib/matrix/projection.tpp:53-231"])
p("C131","Inverse and normalize of quaternions of integers",
  "For a quaternion q with integral elements, q * inverse(q) is one and normalize gives the unit quaternion in the direction of q. Inverse: true exactly for the eight units 1, -1, i, -i, j, -j, k, -k; every other nonzero quaternion gets the inverse zero, from the expression and from the member function. normalize: true exactly for multiples of units; otherwise the elements whose absolute value is the truncated length become 1 or -1 and all others zero. The zero quaternion divides by zero.",
  "for all quaternions of integers, orders and states",
  "tests use floating-point quaternions",
  ["cml/quaternion/inverse_node.tpp:15-45", "cml/quaternion/writable_quaternion.tpp:84-89", "cml/quaternion/writable_quaternion.tpp:153-166", "cml/quaternion/readable_quaternion.tpp:103-134", "cml/scalar/traits.h:49-52"])
p("C132","Fields of view and zoom factors are consistent",
  "xfov_to_yfov and yfov_to_xfov are inverse to each other exactly for fields of view between -pi and pi (otherwise the round trip returns the equivalent angle in that range), zoom_to_fov and fov_to_zoom are inverse to each other, xzoom_to_yzoom and yzoom_to_xzoom convert the zoom factors of converted fields of view; matrix_perspective_xfov with xfov is matrix_perspective_yfov with xfov_to_yfov(xfov, aspect); zoom factors are the scale factors of the projection; zooming in narrows the view; zero aspect ratio, zoom or field of view divide by zero.",
  "for all real fields of view, zoom factors, aspect ratios and matrices of at least 4x4",
  "tests compare a few angles with tolerances",
  ["cml/util.h:11-59", "cml/mathlib/matrix/projection.tpp:176-214"])
p("C133","The random vector of a cone can be stored in the axis of the cone",
  "random_unit(v, v, a) replaces the unit vector v by a unit vector at an angle of at most a with it. False: for fixed-size vectors of two elements the second element is computed from the new first one; the result is the direction of (u, sin(t)*u + cos(t)*v[1]) with u = cos(t)*v[0] - sin(t)*v[1] for the random angle t, which for v = (0,1) and every t other than zero is further away than t. True for v = (1,0) and (-1,0) and t other than a quarter turn, which divides by zero. In all other dimensions, and for dynamic vectors, every random vector leads to a division by zero, because it replaces v before v is used.",
  "for all sizes, contents, cone angles and random draws",
  "tests use two vectors; the result is random, and a unit vector in any case",
  ["cml/mathlib/random_unit.tpp:20-85", "cml/mathlib/random_unit.tpp:125-138"])
p("C134","The builders of rotations are accurate in rounded arithmetic",
  "In rounded arithmetic with a sine and cosine of relative error at most p units of roundoff u, matrix_rotation_2D and matrix_rotation_world_axis have elements of relative error at most p u; matrix_rotation_axis_angle with axis n is within gamma(p+4) (1 + 2|n|^2) + 3 | |n|^2 - 1 | of the rotation about the direction of n; matrix_rotation_euler is within 2 gamma(3p+3) of the rotation, for all twelve orders; quaternion_rotation_axis_angle gives, up to relative errors gamma(p+1), the quaternion of an angle within u of the given one. What is not part of the rotation is exactly the identity.",
  "for all roundings, accuracies p, angles, axes, orders, matrix sizes and bases",
  "tests compare with tolerances at a few angles",
  ["cml/mathlib/matrix/rotation.tpp:22-43", "cml/mathlib/matrix/rotation.tpp:70-229", "cml/mathlib/quaternion/rotation.tpp:58-73", "cml/scalar/traits.h:131-133"])
p("C135","matrix_to_euler stores each angle in the type of its own variable",
  "matrix_to_euler(m, a0, a1, a2, order, tolerance) with variables of the types E0, E1, E2 stores the three angles of the real computation converted to E0, E1 and E2 respectively.",
  "for all symmetric conversions, matrices, bases, orders and tolerances",
  "tests use the same type for the three variables",
  ["cml/mathlib/matrix/rotation.tpp:502-561"])
p("C136","matrix_to_axis_angle returns the angle of the rotation for every type of the axis",
  "matrix_to_axis_angle(m, axis, angle, tolerance) stores the axis and the angle of the real computation, each converted to its own type; the angle does not depend on the type of the elements of the axis.",
  "for all conversions, matrices, bases and tolerances",
  "tests use the element type of the matrix for the axis and the angle",
  ["cml/mathlib/matrix/rotation.tpp:409-471", "cml/vector/readable_vector.tpp:57-70", "cml/scalar/traits.h:49-52"])
p("C137","quaternion_to_axis_angle returns the angle of the rotation in the type of its variable",
  "quaternion_to_axis_angle(q, axis, angle, tolerance) stores the axis and the angle of the real computation, each converted to its own type.",
  "for all conversions, quaternion expressions and tolerances",
  "tests use the element type of the quaternion for the axis and the angle",
  ["cml/mathlib/quaternion/rotation.tpp:225-248", "cml/scalar/traits.h:84-87", "cml/scalar/traits.h:143-146"])
p("C138","rotate_vector is accurate in rounded arithmetic",
  "In rounded arithmetic with a sine and cosine of relative error at most p units of roundoff, rotate_vector(v, n, angle) is in each element within gamma(p+8) (1 + |n| + 2|n|^2) |v| of Rodrigues' formula for the axis n; for an axis of length one it is within 4 gamma(p+8) |v| of the rotated vector, and its length is within 8 gamma(p+8) |v| of the length of v.",
  "for all roundings, accuracies p, vectors, axes and angles",
  "tests compare with tolerances at a few angles",
  ["cml/mathlib/vector/rotation.tpp:15-34", "cml/vector/dot.tpp:14-27", "cml/vector/cross_node.tpp:15-59"])
p("C139","the projection matrices are accurate in rounded arithmetic",
  "In rounded arithmetic every element of matrix_orthographic is within relative error gamma(4), and every element of matrix_perspective within relative error gamma(6), of the element of the exact projection for the same arguments; the elements that are zero are exactly zero, outside of the 4x4 block the matrix is the identity, and the divisions fail exactly for the boxes that are degenerate before rounding.",
  "for all roundings, matrix sizes and bases, boxes, handednesses and clip ranges",
  "tests compare a few matrices with tolerances",
  ["cml/mathlib/matrix/projection.tpp:21-51", "cml/mathlib/matrix/projection.tpp:98-131"])
if __name__ == "__main__":
    here = os.path.dirname(os.path.abspath(__file__))
    with open(os.path.join(here, "..", "properties.jsonl"), "w") as f:
        for q in P: f.write(json.dumps(q) + "\n")
    print(len(P))
