#!/usr/bin/env python3
"""Regenerates /verif/MANIFEST.json from the table below and writes an axiom audit file.

Usage: python3 tools/manifest.py           (writes MANIFEST.json, tools/Audit.lean)
       cd lean && lake env lean ../tools/Audit.lean   (prints the axioms of every claimed theorem)
"""
import json, os
here = os.path.dirname(os.path.abspath(__file__))
claims = []
def c(prop, status, theorems, note=""):
    claims.append({"property": prop, "status": status,
                   "theorems": ["CML." + t for t in theorems.split()], "note": note})

c("C01", "proved", "clamp_mem clamp_cases inRange_iff_clamp_eq inRange_iff_mem clamp_mono clamp_idem clamp_nearest sign_spec")
c("C02", "proved", "wrap_mem wrap_congr wrap_unique wrap_id wrap_idem wrap_periodic wrap_max")
c("C03", "proved", "next_lt prev_lt prev_next next_prev next_iterate cyclicPermutation2_spec cyclicPermutation3_spec cyclicPermutation4_spec")
c("C04", "proved", "indexOfMax2_spec indexOfMin2_spec indexOfMax3_spec indexOfMin3_spec indexOfMax4_spec indexOfMin4_spec indexOfAbs2_spec indexOfAbs3_spec indexOfAbs4_spec")
c("C05", "proved", "mapRange_endpoints mapRange_affine mapRange_roundtrip mapRange_mem_iff mapRange_strictMono")
c("C06", "proved", "unpackEulerOrder_named unpackEulerOrder_rep unpackEulerOrder_parity unpackAxisOrder_named unpackAxisOrder_parity unpackAxisOrder2D_named pack_unpack unpack_pack axisOrder_code_injective eulerOrder_code_injective swapAxisOrder_named swapAxisOrder_invol")
c("C18", "proved", "hashCombine32_bij_elem hashCombine32_bij_state hashCombine64_bij_elem hashCombine64_bij_state vectorHash32_separates vectorHash64_separates vectorHash_ne_of_single_diff vectorHash32_ne_of_single_diff vectorHash64_not_injective")
c("C73", "proved", "sizeTagPromote_spec sizeTagPromote_laws sizeCheckPromote_spec sizeCheckPromote_laws basisTagPromote_laws layoutTagPromote_laws basisTagPromote_not_assoc selectorPromote_laws selectorPromote_spec")

c("C07", "proved", "vexpr_refines vexpr_build_iff")
c("C41", "proved", "mexpr_refines mexpr_build_iff")
c("C79", "partial", "cross_operands_partial cross_dynamic_temporary_throws cross_dynamic_product_throws cross_total_false", "False for dynamically sized temporaries (negation proved); the partial theorem covers named and compile-time sized operands.")
c("C80", "partial", "vexpr_static_size_partial mexpr_static_size_partial subvector_size_one static_size_false", "False (static_size_false) for the subvector of a one-element fixed-size vector, the outer product of a fixed-size and a dynamic vector, and sums and products of transposes of fixed-size non-square matrices; the partial theorems cover all other expressions.")

c("C08", "proved", "assign_elementwise opAssign_elementwise assign_product assign_resizing assign_bad_alloc")
c("C76", "proved", "assign_checked assign_missized")
c("C15", "proved", "extremize_spec extremize_size_error extremize_twice extremize_comm")
c("C16", "partial", "scalAssign_partial scalAssign_self scalAssign_false mscalAssign_partial mscalAssign_self mscalAssign_false", "False when the scalar aliases an element of the destination (negation proved); the partial theorem covers scalars outside the destination.")
c("C17", "partial", "opAssign_same_size_partial opAssign_longer_ub opAssign_shorter_truncates opAssign_false", "False for dynamic destinations (negation proved): a longer right side reads uninitialised elements, a shorter one truncates. The partial theorem covers equal sizes.")
c("C09", "partial", "self_assign_partial cross_self_assign cross_self_assign_false subvector_self_assign_ub transpose_self_assign transpose_self_assign_false transpose_self_assign_rect_ub transpose_assign_partial", "False for cross, subvector and transpose (negations proved); the partial theorem covers destinations read element by element in step or not at all.")

c("C10", "proved", "vlt_lex vgt_lex veq_iff vle_vge_vne vcmp_order")
c("C11", "proved", "vdot_sum vdot_comm vdot_bilinear vlengthSquared_dot vdot_size_error vlength_sqrt vlength_inequalities")
c("C12", "proved", "vcross_is vcross_bilinear vcross_orthogonal vcross_lagrange vcross_jacobi vcross_double vcross_right_hand vtriple_det vtriple_cyclic vperpDot_det vtriple_perpDot_size_error")
c("C13", "proved", "normalized_spec normalize_spec")
c("C14", "proved", "subvector_erases subvector_append_last assign_append subvector_constructor subvector_unchecked")
c("C77", "partial", "vprint_partial vprint_empty_ub vprint_false", "False for empty vectors (negation proved); the partial theorem covers all non-empty vectors.")

c("C33", "proved", "det_small_ring determinant_small square_required", "Closed formulas for 2x2, 3x3, 4x4 equal the mathematical determinant over any commutative ring; non-square input is rejected.")
c("C34", "partial", "determinant_partial determinant_false", "The LU-based determinant is correct when every pivot found by the code is admissible; determinant_false shows it is wrong for diag(-1,1,1,1,1) and undefined for 0x0 (missing fabs in the pivot search).")
c("C35", "proved", "inverse_small inverse_small_singular square_required", "Closed-form inverses for 2x2, 3x3, 4x4: two-sided inverse exactly when the determinant is non-zero.")
c("C36", "partial", "inverse_pivot_partial inverse_one inverse_pivot_false inverse_swaps_false", "What Gauss-Jordan computes is characterised for every run in which the chosen pivots are fresh and non-zero (inverse up to the column permutation); the two defects are proved with witnesses.")
c("C37", "proved", "lu_factors lu_ok_iff lu_unique lu_square_required", "Doolittle factorisation: factors multiply back, succeed exactly when the leading minors do not vanish, unique.")
c("C38", "proved", "lu_pivot_factors lu_pivot_order lu_pivot_total lu_pivot_square_required", "Pivoted LU: order is a permutation, L*U is the row-permuted input, no undefined behaviour.")
c("C39", "partial", "lu_pivot_sign_partial lu_pivot_sign_false", "sign is the permutation sign when no pivot is rejected; zero sign does not mean singular: witness diag(-1,1).")
c("C40", "proved", "lu_solve_spec lu_solve_lu lu_solve_new lu_solve_size_error lu_pivot_solve_singular lu_pivot_solve_spec", "LU solve satisfies A x = b.")

c("C24", "proved", "matrix_index_bijection matrix_put_get")
c("C25", "proved", "massign_elementwise mopAssign_elementwise massign_product massign_resizing massign_checked massign_missized mzero_spec midentity_spec mfill_spec", "massign_product is the assignment from a readable_matrix; if a fixed-size destination has exactly the type of the product the move assignment is used instead, see C116.")
c("C26", "proved", "massign_list massign_list_length massign_ptr mnew_array")
c("C27", "proved", "mtranspose_fixed mtranspose_fixed_twice mtranspose_fixed_rect mtranspose_dyn mtranspose_dyn_twice mtranspose_dyn_bad_alloc")
c("C28", "partial", "mresize_partial mresize_linear mresize_false mresize_relabel_false mresize_errors", "False in general (negations proved): storage is copied linearly. The partial theorem covers resizes that keep the storage line length.")
c("C29", "proved", "matMul_product matVec_product vecMat_product product_size_error product_assoc product_distrib product_identity product_transpose product_vector product_vector_transpose product_self_assign")
c("C30", "partial", "product_inner_zero_partial product_inner_zero_ub product_inner_zero_false", "False (negation proved): with inner dimension zero and a non-empty result the code reads element 0 of empty operands. The partial theorem covers empty results.")
c("C31", "proved", "row_col_spec row_col_negative set_row_spec set_col_spec set_row_col_size set_row_alias_false basis_element_spec set_basis_element_spec basis_vector_roundtrip basis_vector_errors", "set_row_alias_false records that set_row from a column of the same matrix is outside the theorem's hypotheses and goes wrong.")
c("C32", "proved", "trace_sum trace_square trace_linear trace_cyclic trace_small trace_empty_ub")
c("C42", "proved", "meq_iff meq_equivalence")
c("C81", "partial", "basis_node_size_partial basis_node_size_iff basis_node_size_false", "False for non-square column-basis matrices (negation proved).")
c("C19", "proved", "vhistory_owned history_no_leak history_released history_no_ub vhistory_access")
c("C20", "proved", "vresize_prefix vresize_errors")
c("C21", "partial", "resize_reads_destroyed_partial resize_reads_destroyed_false mresize_reads_destroyed_false", "False for every element type with a destructor (negation proved for all sizes); holds for trivial elements and when nothing is kept. Throwing element copies are not modelled.")
c("C22", "proved", "vmove_swaps vmove_values vmove_self vmove_new mmove_swaps mmove_self mmove_new")
c("C23", "proved", "vcopy_independent vcopy_new_independent later_keeps writes_elsewhere vcopy_fixed_independent view_copy_shares view_assign_through view_move_rebinds view_self_move")
c("C78", "proved", "mhistory_owned mhistory_access mcopy_independent history_no_leak history_released history_no_ub")
c("C82", "partial", "ctor_throw_partial mnew_array_leaks_false", "False for matrix(rows, cols, array) with an array of the wrong length: the block is leaked (negation proved). All other constructors leak nothing.")
c("C83", "proved", "history_strong_exception vresize_errors")
c("C43", "proved", "qmul_hamilton qmul_assoc qmul_distrib qmul_norm qmul_identity qidentity_zero qexpr_value qrun_value")
c("C44", "proved", "qmul_conj qmul_inverse qconj_mul qconj_inverse_inplace qinv_zero qrun_undefined qexpr_value", "The product with the conjugate or inverse is taken after storing it in a variable, because q * conjugate(q) does not compile (C85).")
c("C45", "proved", "qorder_independent qdot_eq")
c("C46", "partial", "qassign_cross_order_false qassign_same_order_partial qassign_cross_order", "False (negation proved): elements are copied by storage position. The partial theorem covers operands of the same order; qassign_cross_order says what happens otherwise.")
c("C47", "partial", "qexp_partial qexp_formula_partial qlog_exp_partial qexp_log_partial qexp_real_false", "Proved for non-zero imaginary part; for real quaternions exp and log divide by zero (negation proved).")
c("C48", "proved", "qnormalize_unit qmul_assign qrun_value")
c("C85", "partial", "qmul_mixed_false qmul_accepted_partial", "False (negation proved): both branches of the conditional operator in operator* must have the same type, so the operands must have equal types.")
c("C86", "proved", "qeq_iff qlt_iff qtrichotomy")
c("C87", "partial", "qop_assign_partial qscal_assign_partial qscal_assign_alias_false qop_assign_cross_order_false", "False when the scalar refers to an element of the target and when the orders differ (negations proved).")
c("C88", "proved", "qassign_list qassign_vec qidentity_zero")
c("C60", "proved", "concat_linOf concat_affOf concat_transform concat_transform4D concat_throws", "The header comment of concat.h states the opposite order of application; the code and C60 apply the first argument first.")
c("C61", "proved", "transformVector2D_spec transformPoint2D_spec transformVector_spec transformPoint_spec transformPoint4D_spec transformPoint4D_divZero transformVector4D_spec transform_throws")
c("C62", "proved", "invertRT_spec invertRTOnly_spec invertRTOnly2D_spec invertRT_inverse invertRTOnly_inverse invertRT_throws")
c("C63", "proved", "setTranslation_spec setTranslation_variants getTranslation_spec set_get_translation translation_spec translation_variants setTranslation_throws setTranslation2D_spec getTranslation2D_spec translation2D_spec scale3D_spec inverseScale3D_spec scale2D_spec inverseScale2D_spec scale_throws")
c("C64", "proved", "orthographic_spec orthographic_fails orthographic_box orthographicWH_eq")
c("C65", "proved", "perspective_spec perspective_fails perspective_frustum perspective_depth perspectiveWH_eq perspectiveXfov_spec perspectiveYfov_spec perspectiveFov_fails")
c("C66", "proved", "frustumPlanes_spec frustumPlanes_clip frustumPlanes2_clip frustumPlanes_perspective frustumPlanes_throws Plane.normalized_spec extractFrustumPlanes_normalized extractFrustumPlanes_throws extractFrustumPlanes2_normalized",
  "Normalising a plane with a zero normal divides by zero; this is proved as the only other outcome.")
c("C71", "proved", "skewSymmetric_spec skewSymmetric2D_spec skewSymmetric_throws")
c("C72", "partial", "linearTransform_partial linearTransform_own linearTransform_own_false affineTransform_partial affineTransform_own_false", "False when the target is also the source (negations proved): the target is set to identity before the source is read.")
c("C84", "proved", "vzero_spec vfill_spec vput_spec vput_oob vcardinal_spec vlist_spec vlist_missized vlist_resizing")
c("C69", "proved", "projectToVector_spec projectToVector_zero projectToHplane_spec project_decompose projectToVector_scale project_throws perp_spec perp_throws manhattan_spec manhattan_metric manhattan_throws")
c("C49","proved","rotationWorldAxis_spec rotationWorldAxis_rotation rotationWorldAxis_concat rotationWorldXYZ rotationWorldAxis_throws rotation2D_spec rotation2D_concat rotation2D_throws rodrigues_spec","")
c("C50","proved","rotationAxisAngle_spec rotationAxisAngle_rotation rotationAxisAngle_concat rotationAxisAngle_rotateVector rotationAxisAngle_throws rodrigues_spec","")
c("C51","proved","rotationEuler_spec rotationEuler_rotation rotationEuler_concat rotationEulerV_spec rotationEuler_throws eulerRot_order_matters","The header comment gives the opposite order; eulerRot_order_matters shows that the two differ.")
c("C52","partial","rotationEulerDerivatives_partial rotationEulerDerivatives_odd_wrong rotationEulerDerivatives_spec rotationEulerDerivatives_throws rotationEulerDerivativesV_spec","Holds for xyz, yzx, zxy. False for xzy, yxz, zyx: the negative of the derivative is returned (rotationEulerDerivatives_odd_wrong); rotationEulerDerivatives_spec states exactly what is returned for all six orders.")
c("C70","proved","rotateVector_isometry rotateVector_add rotateVector_rodrigues rotateVector_throws","")
c("C53","proved","rotationQuaternion_spec rotationQuaternion_ok rotationQuaternion_neg rotationQuaternion_mul rotationQuaternion_throws","")
c("C54","proved","qRotationWorldAxis_spec qRotationWorldAxis_throws qRotationWorldXYZ qRotationAxisAngle_spec qRotationEuler_spec qRotationEulerV_spec qRotation_throws","")
c("C55","proved","qRotationMatrix_ok qRotationMatrix_spec qRotationMatrix_roundtrip qRotationMatrix_throws","")
c("C75","proved","quaternionGetBasisVector_ok quaternionGetBasisVector_spec quaternionGetBasisVectors_frame quaternionGetBasisVector_throws","")
c("C56","proved","toAxisAngle_spec toAxisAngle_zero toAxisAngle_roundtrip rotationAxisAngle_extract toAxisAngle_throws qToAxisAngle_spec qRotationAxisAngle_extract","over exact reals; tolerance 0 covers every rotation, a positive tolerance is covered outside of the band in which the code rounds to a symmetric matrix or a real quaternion")
c("C57","proved","toEuler_spec toEuler_zero toEuler_roundtrip rotationEuler_extract toEuler_throws qToEuler_spec","over exact reals; all twelve orders and the gimbal lock branch; a positive tolerance is covered outside of the band")
c("C58","proved","orthonormalBasis_spec orthonormalBasis_parallel orthonormalBasis_throws orthonormalBasis2D_spec orthonormalBasis2D_throws rotationAlign_spec rotationAlign_throws rotationAlign2D_spec rotationAimAt_spec qRotationAlign_spec qRotationAimAt_spec","over exact reals; parallel vectors are a division by zero")
c("C59","proved","lookAt_spec lookAt_variants lookAt_parallel lookAt_throws affineAxisAngle_spec","over exact reals; up parallel to the view direction is a division by zero")
c("C89","proved","setBasisVector_spec setTransposedBasisVector_spec setBasisVector2D_spec setBasisVectors_spec setTransposedBasisVectors_spec setBasisVectors2D_spec getBasisVector_spec getBasisVector2D_spec getBasisVectors_spec getBasisVectorND_spec basisVector_throws basisVector2D_throws","")
c("C67", "proved", "polarToCartesian_spec cylindricalToCartesian_spec sphericalToCartesian_spec cartesianToPolar_spec cartesianToCylindrical_spec cartesianToSpherical_spec polar_roundtrip polar_roundtrip' cylindrical_roundtrip cylindrical_roundtrip' spherical_roundtrip spherical_roundtrip' coord_throws",
  "Inside of the tolerance band the round trip moves the point by at most twice its distance from the axis (origin).")
c("C68", "proved", "signedAngle2D_spec planeRot_injective signedAngle2D_antisymm unsignedAngle2D_spec signedAngle2D_scale unsignedAngle_spec unsignedAngle_symm unsignedAngle_scale signedAngle_spec signedAngle_rotates angle_throws")
c("C74", "partial", "randomUnit_spec randomUnit_continues randomUnit_ends_iff randomUnit_throws randomCone2D_spec randomConeMap_spec randomConeMap_parallel randomCone_two randomCone_partial randomCone_parallel parallel_of_one randomCone_one randomCone_throws",
  "False as stated when the drawn vector is parallel to d: the code divides by sin(0) (randomCone_parallel); with one element this always happens (randomCone_one). Proved for all other draws, and without exception in two dimensions.")
c("C90", "proved", "constants_accurate constants_related deg_rad deg_accurate acosSafe_spec asinSafe_spec acosSafe_add_asinSafe sqrtSafe_spec invSqrt_spec invSqrt_zero randomPolar_spec scalar_length_spec", "Literals taken exactly, without rounding to double.")
c("C91", "proved", "mprint_spec mprint_elements mprint_injective qprint_spec", "")
c("C92", "partial", "allocDisambiguate_laws allocDisambiguate_user storagePromote_total storagePromote_comm storagePromote_unit storagePromote_choice storagePromote_not_assoc storagePromote_assoc_partial", "Associativity is false for three different user allocators (storagePromote_not_assoc) and proved for operands without conflicting allocators; everything else holds.")
c("C93", "partial", "transpose_product_truncates transpose_product_overruns transpose_vector_ub transpose_sum_rejected transpose_sum_overruns transpose_product_false transpose_sum_dynamic_partial", "False for every non-square fixed-size matrix (negations proved): the storage type of the transpose has the dimensions of its operand. Proved for sums assigned to a dynamic matrix; square and dynamic operands are covered by C25, C29 and C41.")
c("C94", "partial", "outer_mixed_rejected outer_mixed_dynamic_partial", "False for fixed-size destinations (rejected at compile time, outer_mixed_rejected); proved for dynamic destinations.")
c("C95", "proved", "dot_backward_stable dot_error length_squared_error length_squared_pos", "Standard model of rounding: relative error at most u in each operation; no overflow or underflow.")
c("C96", "proved", "matMul_error matVec_error vecMat_error", "Standard model of rounding: relative error at most u in each operation; no overflow or underflow.")
c("C97", "proved", "lu_backward_stable lu_rounded_outcome lu_pivot_backward_stable lu_pivot_rounded_returns", "Standard model of rounding: relative error at most u in each operation; no overflow or underflow.")
c("C98", "proved", "lu_solve_backward_stable lu_lu_solve_backward_stable lu_pivot_solve_backward_stable", "Standard model of rounding: relative error at most u in each operation; no overflow or underflow.")
c("C99", "proved", "vexpr_rounding vexpr_rounding_rejects mexpr_rounding mexpr_rounding_rejects assign_rounding massign_rounding VNear.relative", "Standard model of rounding: relative error at most u in each operation; no overflow or underflow.")
c("C100", "proved", "determinant_small_error determinant_lu_backward_stable", "Standard model of rounding: relative error at most u in each operation; no overflow or underflow.")
c("C101", "proved", "inverse_small_error", "Standard model of rounding: relative error at most u in each operation; no overflow or underflow.")
c("C102", "proved", "qmul_error qdot_error qnorm_error qinv_error qexp_rounding", "Standard model of rounding: relative error at most u in each operation; no overflow or underflow. Inverses inside of larger expressions are not covered.")
c("C103", "proved", "mview_ctor mview_array mview_assign_through mview_resize mview_move mview_nulled mview_self_move mview_swap mview_assign", "")
c("C104", "partial", "mopAssign_dims_partial mopAssign_checked mview_assign mopAssign_relabels mopAssign_truncates mopAssign_larger_ub mopAssign_dims_false", "True for matrices that cannot be resized (mopAssign_checked) and for views of a different number of elements (mview_assign). False (mopAssign_dims_false) for dynamic matrices, which are silently reshaped (same number of elements), truncated (fewer) or combined with uninitialised memory (more), and for views of the same number of elements.")
c("C105", "proved", "translation2D_throws setTranslation_throws translation_throws scale_throws scale_all_throws skewSymmetric_throws trace_throws linearTransform_throws affineTransform_throws projection_throws fov_throws basisVector_throws basisVector2D_throws basisVectors_throws alignment_throws rotationAlign_throws lookAt_throws orthonormalBasis_throws orthonormalBasis2D_throws rotation2D_throws rotationWorldAxis_throws rotationAxisAngle_throws rotationEuler_throws rotationEulerDerivatives_throws rotateVector_throws rotationQuaternion_throws qRotationMatrix_throws qRotation_throws toAxisAngle_throws toEuler_throws transform_throws concat_throws invertRT_throws frustumPlanes_throws extractFrustumPlanes_throws coord_throws angle_throws project_throws perp_throws manhattan_throws randomUnit_throws randomCone_throws")
c("C106", "partial", "strong_guarantee_partial set_strong scale_strong linearTransform_strong invertRTOnly_strong invertRT_strong rotation_strong rotationQuaternion_strong strong_guarantee_false translation_weak basisVectors_weak affineTransform_weak rotation_weak aSetBasisVectors2D_final aSetBasisVectors_final aSetTranslation_final aTranslation_final aScale_final aInverseScale_final aSkewSymmetric_final aLinearTransform_final aAffineTransform_final aInvertRTOnly_final aInvertRT_final aProjection_final aRotationQuaternion_final aRotation_final aRotationEuler_final aRotationEulerDerivatives_final aAlign_final aAffineAxisAngle_final", "True for the functions that check everything first. False (strong_guarantee_false) for translation builders, several basis vectors, affine transforms, alignment, look_at and Euler angle derivatives; what they leave is proved. The procedures with exception states are shown to agree with the functions the other properties are about (..._final).")
c("C107", "proved", "indexI_eq getI_eq putI_eq mResizeI_eq mNewI_eq mDestroyI_eq mReshapeI_eq mStoreI_eq mAssignI_eq mAssignPtrI_eq mNewPtrI_eq combinedSizeI_eq", "The model with int arithmetic equals the unbounded model, for every behaviour of overflow. The reads of assigned expressions are covered by getI_eq per element.")
c("C108", "partial", "resize_dims_partial mResizeI_overflow mResizeI_wrapping mResizeI_wrapping_oob getI_overflow view_access_false resize_dims_false resize_wrap_false", "False beyond INT_MAX elements: rows * cols overflows (undefined behaviour; with wrap-around the storage is too small). The partial theorem covers at most INT_MAX elements.")
c("C109", "proved", "minverse_mem minverse_small minverse_not_square minverse_new", "Simulation of the value-level algorithm; index arrays are values. minverse_new is for run-time dimensions.")
c("C110", "proved", "mlu_mem mlu_factors mlupivot_mem mlupivot_factors mdeterminant_mem mdeterminant_not_square mdeterminant_small", "Determinant for run-time dimensions (the temporary is a dynamic matrix).")
c("C111", "proved", "mlusolve_spec mlusolve_size_error mlusolve_overlap_false mlupivotsolve_spec mlupivotsolve_error", "mlusolve_overlap_false shows that LU must not overlap x.")
c("C112", "proved", "op_refines op_rejected program_refines program_completes program_rejects program_value program_mvalue program_releases Op.Means.unique Means.unique", "Refinement of a store without memory. Usage rules are part of the meaning of a statement (Op.Means): no use of the assigned variable under a cross product or transpose or when its size changes, no temporary that determines the size of a cross product operand (C79), no scalar argument that is an element of the changed variable. Trivial element types.")
c("C113", "proved", "deferred_value mdeferred_value deferred_current mdeferred_current deferred_product deferred_program mdeferred_program deferred_statements mdeferred_statements deferred_sizes_unchecked deferred_dangling deferred_stale", "deferred_stale: re-evaluation of the written expression is not what a stored object with a product does. The program versions concern dynamic objects (C112), the others every kind of storage.")
c("C114", "proved", "toAxisAngle_near toAxisAngle_near_roundtrip qToAxisAngle_near toEuler_near toEuler_near_roundtrip qToEuler_near toEuler_near_sharp", "Exact real arithmetic; no condition on the rotation other than being one.")
c("C115", "proved", "length_error normalized_error normalize_error normalized_twice qlength_error qnormalize_error", "Standard model of rounding: relative error at most u in each operation including the square root; no overflow or underflow.")
c("C116", "partial", "mmove_fixed_partial massign_product_move_partial vmove_fixed mmove_fixed_strict_oob mmove_fixed_tall_oob mmove_fixed_wide mmove_fixed_last_stale mmove_fixed_false", "False (negation proved) for column-major matrices that are not square. The partial theorems cover row-major and square matrices, vmove_fixed all vectors; the other theorems say what happens in the remaining case for all sizes.")
c("C117", "partial", "vrange mrange vassign_ptr vassign_ptr_overlap_false vnew_ptr vnew_ptr_negative vcopy_via_data massign_raw mnew_ptr massign_data_partial massign_data_transpose massign_data_false mview_data mview_data_transpose vview_move_new vview_reset vrandom mrandom", "False (negation proved) for x.assign(y.data()) with a column-major y; massign_data_partial covers row-major y, massign_data_transpose says what happens otherwise. All other claims are proved in full.")
c("C118", "proved", "stmt_refines stmt_rejected lin_program_refines lin_program_completes lin_program_rejects lin_program_releases Stmt.Means.unique SMeans.unique solve_program inverse_program transpose_program", "Exact arithmetic (ordered fields). Usage rules are part of the meaning of a statement (Stmt.Means): inverses up to 4x4 (larger ones: C36), determinants above 4x4 and pivoted systems when every pivot exceeds epsilon (what happens otherwise: C35, C38). The allocation of the row order of lu_pivot is not modelled.")
c("C119", "proved", "rotationQuaternion_error transformVector_error transformPoint_error rotate_by_quaternion_error mulChain_drift qMulChain_drift qMulAssignChain_drift", "Standard model of rounding: relative error at most u in each operation; no overflow or underflow. The matrices and quaternions of the chains need not come from the library: any operands within the given distance of exact rotations.")
c("C120", "partial", "vcmp_num_partial meq_num_partial vlt_nan vgt_nan veq_nan veq_all_nan veq_nan_refl_symm veq_nan_false vlt_nan_cycle extremize_nan meq_nan meq_nan_false qcmpB_eq qeq_nan qnan_self qcmp_nan_false nan_in_range nan_bound indexOfMax_nan_false", "False (negations proved) as soon as an element is NaN. The partial theorems cover operands without NaN; the others say for all operands what the operators compute.")
c("C121", "partial", "intAngle_partial realAngle_same intAngle_false exact_inside intAngle_zero rotation2D_int_false rotationWorldAxis_int_false rotationAxisAngle_int_false rotationEuler_int_false rotateVector_int_false qRotationWorldAxis_int_false qRotationAxisAngle_int_false qRotationEuler_int_false qIntAngle_small qRotationWorldAxis_int_one polarToCartesian_int_false cylindricalToCartesian_int_false sphericalToCartesian_int_false degrad_int_false", "False for every integer other than zero (negations proved, with what the functions return instead). The partial theorem covers zero; realAngle_same says that for real angles the functions are those of C49-C54, C67, C70.")
c("C122", "partial", "determinant_int_partial normalized_int_partial inverse_int_iff inverse_int_error inverse_int_singular inverse_int_pivot_false determinant_int_false vlength_int normalized_int normalize_int normalized_int_false", "False for determinants and inverses from 5x5 on (witnesses), for inverses of matrices whose determinant is not a unit, and for normalize of vectors with two nonzero elements (for all of them). Integers are unbounded.")
c("C123", "partial", "in_turn_meant_iff vset_in_turn vset_partial vset_resize_partial vset_resize_dangling mset_in_turn mset_partial mset_length vset_own_false vset_resize_false mset_own_false selfbuild_plain selfbuild_plain_real selfbuild_temporaries rotationWorldAxis_own affineAxisAngle_own lookAt_sees_identity selflook_plain lookAt_forgets lookAt_ownPosition_false lookAt_ownUp_false rotation_sees_identity scale_sees_identity uniformScale_sees_identity scaleV_sees_identity skewSymmetric_own skewSymmetric2D_own setBasisVector_basis setBasisVector_cross setBasisVectors_in_turn setBasisVectors_partial setTranslation_in_turn setTranslation_partial scale_own_false setTranslation_own_false setBasisVectors_false setBasisVector_cross_false skewSymmetric_own_false rotationAxisAngle_own_false", "False with witnesses for set and for every builder that stores in turn or starts from the identity or zero matrix; what these compute instead is proved for all inputs.")
c("C124", "partial", "polarInto_partial polarInPlace_iff polarInPlace_swapped_iff polarInPlace_false cylindricalInto_partial cylindricalInPlace_false sphericalInto_partial sphericalInPlace_iff eulerInto_partial eulerInPlace_false axisAngleInto_partial axisAngleInto_offDiagonal axisAngleInPlace_false qAxisAngleInto_partial qAxisAngleInPlace_false translationInto_partial translationInPlace_false basisVectorsInto_partial transposedBasisInto_partial transposedBasisInPlace_false transposedBasisInPlace_iff orthonormalInto_any", "False with witnesses: a function that stores one result before it has read all it needs goes wrong for outputs over the elements read later. The partial theorems name these elements function by function.")
c("C125", "proved", "mixed_get_holds mixed_ty_real mixed_get_exact mixed_get_modEq mixed_div_trunc mixed_assign_run mixed_assign_exact mixed_assign_trunc mixed_scalAssign_trunc mixed_binAssign_trunc mixed_halve_double mixed_sub_addNeg", "Integers of 8 to 64 bits with the conversions of the language; one floating-point type with exact arithmetic; conversion to a narrower signed type modulo its range (implementation-defined in C++17).")
c("C126", "partial", "dotT_modEq innerT_modEq dotT_eq_innerT dotT_exact innerT_exact dotT_narrow_defined products_unsigned_defined dotT_u16_iff innerT_u8_iff unsigned_defined_false", "Undefined for unsigned elements of 16 bits (dot) and for sums of products of bytes (matrix products); the exact conditions are proved.")
c("C127", "partial", "mixedCmp_real mixedCmp_int mixedCmp_partial mixedEq_false mixedLt_false", "False for negative elements compared with unsigned ones; what is compared instead is proved.")
c("C128", "partial", "wrapI_partial wrapI_overflow wrapI_int_iff wrapI_unsigned_iff wrapI_unsigned_false wrapI_narrow_false wrapI_wide_false mapRangeI_spec mapRangeI_iff mapRangeI_partial", "False where the differences do not fit (wrap) and between the ends of the range (map_range); the partial theorems cover the rest. double has 53 bits and rounds to nearest even.")
c("C129", "partial", "orthographicI_spec perspectiveI_spec orthographicI_iff perspectiveI_iff projectionI_collapse projectionWHI_false perspectiveFovI_false projectionI_partial", "False for every box but unit boxes (exact condition proved). Integers are unbounded.")
c("C130", "proved", "projection_mirror projectionWH_mirror perspectiveWH_inj perspectiveFov_agree perspectiveFov_mirror", "Exact arithmetic.")
c("C131", "partial", "quat_int_unit qinv_int qinverse_int qinv_int_iff qinv_int_false qinv_int_partial qlength_int qnormalize_int qnormalize_int_false qnormalize_int_partial", "False outside the units (inverse) and their multiples (normalize); exact conditions proved. Integers are unbounded.")
c("C132", "proved", "fov_roundtrip fov_roundtrip_iff zoom_roundtrip zoom_fov_commute zoom_monotone fov_undefined fov_perspective zoom_perspective", "Exact arithmetic. The range -pi..pi is part of the statement; outside of it the result is characterised.")
c("C133", "partial", "randomConeSelf_partial randomCone2DSelf_spec randomCone2DSelf_false randomConeSelf_two_false randomConeSelf_general", "False (negations proved) in every dimension; the partial theorem covers directions along the first axis in two dimensions.")
c("C134", "proved", "builders_real Trig.rounded_accurate rotation2D_error rotationWorldAxis_error rotationAxisAngle_error rotationEuler_error qRotationAxisAngle_error", "Standard model of rounding; no overflow or underflow. builders_real says that the builders are those of C49-C51 and C54 for real numbers.")
c("C135", "partial", "toEulerAs_partial toEulerAs_spec toEulerAs_iff toEulerAs_real toEulerAs_false", "Fails for orders with a repeated axis outside of gimbal lock: rotation.tpp:530-531 converts the third angle to the type of the first one. toEulerAs_iff says exactly when the result is right; toEulerAs_false says what is returned instead.")
c("C136", "partial", "toAxisAngleAs_partial toAxisAngleAs_false toAxisAngleAs_ub", "Holds for an axis of the element type of the matrix and any type of the angle (toAxisAngleAs_partial). Fails for an axis with integral elements: rotations by acute angles with |sin| < 1/2 are returned as no rotation (toAxisAngleAs_false), those by obtuse ones divide by zero (toAxisAngleAs_ub).")
c("C137", "partial", "qToAxisAngleAs_partial qToAxisAngleAs_real qToAxisAngleAs_int qToAxisAngleAs_iff qToAxisAngleAs_axis", "Holds for an axis of the element type and an angle of the same or a wider type. Fails for an integral angle, since the arguments of atan2 are converted to the type of the angle first: all angles are returned as zero, half turns as two (qToAxisAngleAs_int, qToAxisAngleAs_iff says when this is right). Fails for an integral axis (qToAxisAngleAs_axis).")
c("C138", "proved", "rotateVectorG_real rotateVector_error rotateVector_unit_error", "Standard model of rounding; no overflow or underflow.")
c("C139", "proved", "projections_field orthographic_error perspective_error projections_round_fails", "Standard model of rounding; no overflow or underflow.")
claims.sort(key=lambda d: d["property"])
json.dump({"claims": claims}, open(os.path.join(here, "..", "MANIFEST.json"), "w"), indent=1)
with open(os.path.join(here, "Audit.lean"), "w") as f:
    f.write("import Verif\n")
    for d in claims:
        for t in d["theorems"]:
            f.write("#print axioms %s\n" % t)
