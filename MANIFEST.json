{
 "claims": [
  {
   "property": "C01",
   "status": "proved",
   "theorems": [
    "CML.clamp_mem",
    "CML.clamp_cases",
    "CML.inRange_iff_clamp_eq",
    "CML.inRange_iff_mem",
    "CML.clamp_mono",
    "CML.clamp_idem",
    "CML.clamp_nearest",
    "CML.sign_spec"
   ],
   "note": ""
  },
  {
   "property": "C02",
   "status": "proved",
   "theorems": [
    "CML.wrap_mem",
    "CML.wrap_congr",
    "CML.wrap_unique",
    "CML.wrap_id",
    "CML.wrap_idem",
    "CML.wrap_periodic",
    "CML.wrap_max"
   ],
   "note": ""
  },
  {
   "property": "C03",
   "status": "proved",
   "theorems": [
    "CML.next_lt",
    "CML.prev_lt",
    "CML.prev_next",
    "CML.next_prev",
    "CML.next_iterate",
    "CML.cyclicPermutation2_spec",
    "CML.cyclicPermutation3_spec",
    "CML.cyclicPermutation4_spec"
   ],
   "note": ""
  },
  {
   "property": "C04",
   "status": "proved",
   "theorems": [
    "CML.indexOfMax2_spec",
    "CML.indexOfMin2_spec",
    "CML.indexOfMax3_spec",
    "CML.indexOfMin3_spec",
    "CML.indexOfMax4_spec",
    "CML.indexOfMin4_spec",
    "CML.indexOfAbs2_spec",
    "CML.indexOfAbs3_spec",
    "CML.indexOfAbs4_spec"
   ],
   "note": ""
  },
  {
   "property": "C05",
   "status": "proved",
   "theorems": [
    "CML.mapRange_endpoints",
    "CML.mapRange_affine",
    "CML.mapRange_roundtrip",
    "CML.mapRange_mem_iff",
    "CML.mapRange_strictMono"
   ],
   "note": ""
  },
  {
   "property": "C06",
   "status": "proved",
   "theorems": [
    "CML.unpackEulerOrder_named",
    "CML.unpackEulerOrder_rep",
    "CML.unpackEulerOrder_parity",
    "CML.unpackAxisOrder_named",
    "CML.unpackAxisOrder_parity",
    "CML.unpackAxisOrder2D_named",
    "CML.pack_unpack",
    "CML.unpack_pack",
    "CML.axisOrder_code_injective",
    "CML.eulerOrder_code_injective",
    "CML.swapAxisOrder_named",
    "CML.swapAxisOrder_invol"
   ],
   "note": ""
  },
  {
   "property": "C07",
   "status": "proved",
   "theorems": [
    "CML.vexpr_refines",
    "CML.vexpr_build_iff"
   ],
   "note": ""
  },
  {
   "property": "C08",
   "status": "proved",
   "theorems": [
    "CML.assign_elementwise",
    "CML.opAssign_elementwise",
    "CML.assign_product",
    "CML.assign_resizing",
    "CML.assign_bad_alloc"
   ],
   "note": ""
  },
  {
   "property": "C09",
   "status": "partial",
   "theorems": [
    "CML.self_assign_partial",
    "CML.cross_self_assign",
    "CML.cross_self_assign_false",
    "CML.subvector_self_assign_ub",
    "CML.transpose_self_assign",
    "CML.transpose_self_assign_false",
    "CML.transpose_self_assign_rect_ub",
    "CML.transpose_assign_partial"
   ],
   "note": "False for cross, subvector and transpose (negations proved); the partial theorem covers destinations read element by element in step or not at all."
  },
  {
   "property": "C10",
   "status": "proved",
   "theorems": [
    "CML.vlt_lex",
    "CML.vgt_lex",
    "CML.veq_iff",
    "CML.vle_vge_vne",
    "CML.vcmp_order"
   ],
   "note": ""
  },
  {
   "property": "C100",
   "status": "proved",
   "theorems": [
    "CML.determinant_small_error",
    "CML.determinant_lu_backward_stable"
   ],
   "note": "Standard model of rounding: relative error at most u in each operation; no overflow or underflow."
  },
  {
   "property": "C101",
   "status": "proved",
   "theorems": [
    "CML.inverse_small_error"
   ],
   "note": "Standard model of rounding: relative error at most u in each operation; no overflow or underflow."
  },
  {
   "property": "C102",
   "status": "proved",
   "theorems": [
    "CML.qmul_error",
    "CML.qdot_error",
    "CML.qnorm_error",
    "CML.qinv_error",
    "CML.qexp_rounding"
   ],
   "note": "Standard model of rounding: relative error at most u in each operation; no overflow or underflow. Inverses inside of larger expressions are not covered."
  },
  {
   "property": "C103",
   "status": "proved",
   "theorems": [
    "CML.mview_ctor",
    "CML.mview_array",
    "CML.mview_assign_through",
    "CML.mview_resize",
    "CML.mview_move",
    "CML.mview_nulled",
    "CML.mview_self_move",
    "CML.mview_swap",
    "CML.mview_assign"
   ],
   "note": ""
  },
  {
   "property": "C104",
   "status": "partial",
   "theorems": [
    "CML.mopAssign_dims_partial",
    "CML.mopAssign_checked",
    "CML.mview_assign",
    "CML.mopAssign_relabels",
    "CML.mopAssign_truncates",
    "CML.mopAssign_larger_ub",
    "CML.mopAssign_dims_false"
   ],
   "note": "True for matrices that cannot be resized (mopAssign_checked) and for views of a different number of elements (mview_assign). False (mopAssign_dims_false) for dynamic matrices, which are silently reshaped (same number of elements), truncated (fewer) or combined with uninitialised memory (more), and for views of the same number of elements."
  },
  {
   "property": "C105",
   "status": "proved",
   "theorems": [
    "CML.translation2D_throws",
    "CML.setTranslation_throws",
    "CML.translation_throws",
    "CML.scale_throws",
    "CML.scale_all_throws",
    "CML.skewSymmetric_throws",
    "CML.trace_throws",
    "CML.linearTransform_throws",
    "CML.affineTransform_throws",
    "CML.projection_throws",
    "CML.fov_throws",
    "CML.basisVector_throws",
    "CML.basisVector2D_throws",
    "CML.basisVectors_throws",
    "CML.alignment_throws",
    "CML.rotationAlign_throws",
    "CML.lookAt_throws",
    "CML.orthonormalBasis_throws",
    "CML.orthonormalBasis2D_throws",
    "CML.rotation2D_throws",
    "CML.rotationWorldAxis_throws",
    "CML.rotationAxisAngle_throws",
    "CML.rotationEuler_throws",
    "CML.rotationEulerDerivatives_throws",
    "CML.rotateVector_throws",
    "CML.rotationQuaternion_throws",
    "CML.qRotationMatrix_throws",
    "CML.qRotation_throws",
    "CML.toAxisAngle_throws",
    "CML.toEuler_throws",
    "CML.transform_throws",
    "CML.concat_throws",
    "CML.invertRT_throws",
    "CML.frustumPlanes_throws",
    "CML.extractFrustumPlanes_throws",
    "CML.coord_throws",
    "CML.angle_throws",
    "CML.project_throws",
    "CML.perp_throws",
    "CML.manhattan_throws",
    "CML.randomUnit_throws",
    "CML.randomCone_throws"
   ],
   "note": ""
  },
  {
   "property": "C106",
   "status": "partial",
   "theorems": [
    "CML.strong_guarantee_partial",
    "CML.set_strong",
    "CML.scale_strong",
    "CML.linearTransform_strong",
    "CML.invertRTOnly_strong",
    "CML.invertRT_strong",
    "CML.rotation_strong",
    "CML.rotationQuaternion_strong",
    "CML.strong_guarantee_false",
    "CML.translation_weak",
    "CML.basisVectors_weak",
    "CML.affineTransform_weak",
    "CML.rotation_weak",
    "CML.aSetBasisVectors2D_final",
    "CML.aSetBasisVectors_final",
    "CML.aSetTranslation_final",
    "CML.aTranslation_final",
    "CML.aScale_final",
    "CML.aInverseScale_final",
    "CML.aSkewSymmetric_final",
    "CML.aLinearTransform_final",
    "CML.aAffineTransform_final",
    "CML.aInvertRTOnly_final",
    "CML.aInvertRT_final",
    "CML.aProjection_final",
    "CML.aRotationQuaternion_final",
    "CML.aRotation_final",
    "CML.aRotationEuler_final",
    "CML.aRotationEulerDerivatives_final",
    "CML.aAlign_final",
    "CML.aAffineAxisAngle_final"
   ],
   "note": "True for the functions that check everything first. False (strong_guarantee_false) for translation builders, several basis vectors, affine transforms, alignment, look_at and Euler angle derivatives; what they leave is proved. The procedures with exception states are shown to agree with the functions the other properties are about (..._final)."
  },
  {
   "property": "C107",
   "status": "proved",
   "theorems": [
    "CML.indexI_eq",
    "CML.getI_eq",
    "CML.putI_eq",
    "CML.mResizeI_eq",
    "CML.mNewI_eq",
    "CML.mDestroyI_eq",
    "CML.mReshapeI_eq",
    "CML.mStoreI_eq",
    "CML.mAssignI_eq",
    "CML.mAssignPtrI_eq",
    "CML.mNewPtrI_eq",
    "CML.combinedSizeI_eq"
   ],
   "note": "The model with int arithmetic equals the unbounded model, for every behaviour of overflow. The reads of assigned expressions are covered by getI_eq per element."
  },
  {
   "property": "C108",
   "status": "partial",
   "theorems": [
    "CML.resize_dims_partial",
    "CML.mResizeI_overflow",
    "CML.mResizeI_wrapping",
    "CML.mResizeI_wrapping_oob",
    "CML.getI_overflow",
    "CML.view_access_false",
    "CML.resize_dims_false",
    "CML.resize_wrap_false"
   ],
   "note": "False beyond INT_MAX elements: rows * cols overflows (undefined behaviour; with wrap-around the storage is too small). The partial theorem covers at most INT_MAX elements."
  },
  {
   "property": "C109",
   "status": "proved",
   "theorems": [
    "CML.minverse_mem",
    "CML.minverse_small",
    "CML.minverse_not_square",
    "CML.minverse_new"
   ],
   "note": "Simulation of the value-level algorithm; index arrays are values. minverse_new is for run-time dimensions."
  },
  {
   "property": "C11",
   "status": "proved",
   "theorems": [
    "CML.vdot_sum",
    "CML.vdot_comm",
    "CML.vdot_bilinear",
    "CML.vlengthSquared_dot",
    "CML.vdot_size_error",
    "CML.vlength_sqrt",
    "CML.vlength_inequalities"
   ],
   "note": ""
  },
  {
   "property": "C110",
   "status": "proved",
   "theorems": [
    "CML.mlu_mem",
    "CML.mlu_factors",
    "CML.mlupivot_mem",
    "CML.mlupivot_factors",
    "CML.mdeterminant_mem",
    "CML.mdeterminant_not_square",
    "CML.mdeterminant_small"
   ],
   "note": "Determinant for run-time dimensions (the temporary is a dynamic matrix)."
  },
  {
   "property": "C111",
   "status": "proved",
   "theorems": [
    "CML.mlusolve_spec",
    "CML.mlusolve_size_error",
    "CML.mlusolve_overlap_false",
    "CML.mlupivotsolve_spec",
    "CML.mlupivotsolve_error"
   ],
   "note": "mlusolve_overlap_false shows that LU must not overlap x."
  },
  {
   "property": "C112",
   "status": "proved",
   "theorems": [
    "CML.op_refines",
    "CML.op_rejected",
    "CML.program_refines",
    "CML.program_completes",
    "CML.program_rejects",
    "CML.program_value",
    "CML.program_mvalue",
    "CML.program_releases",
    "CML.Op.Means.unique",
    "CML.Means.unique"
   ],
   "note": "Refinement of a store without memory. Usage rules are part of the meaning of a statement (Op.Means): no use of the assigned variable under a cross product or transpose or when its size changes, no temporary that determines the size of a cross product operand (C79), no scalar argument that is an element of the changed variable. Trivial element types."
  },
  {
   "property": "C113",
   "status": "proved",
   "theorems": [
    "CML.deferred_value",
    "CML.mdeferred_value",
    "CML.deferred_current",
    "CML.mdeferred_current",
    "CML.deferred_product",
    "CML.deferred_program",
    "CML.mdeferred_program",
    "CML.deferred_statements",
    "CML.mdeferred_statements",
    "CML.deferred_sizes_unchecked",
    "CML.deferred_dangling",
    "CML.deferred_stale"
   ],
   "note": "deferred_stale: re-evaluation of the written expression is not what a stored object with a product does. The program versions concern dynamic objects (C112), the others every kind of storage."
  },
  {
   "property": "C114",
   "status": "proved",
   "theorems": [
    "CML.toAxisAngle_near",
    "CML.toAxisAngle_near_roundtrip",
    "CML.qToAxisAngle_near",
    "CML.toEuler_near",
    "CML.toEuler_near_roundtrip",
    "CML.qToEuler_near",
    "CML.toEuler_near_sharp"
   ],
   "note": "Exact real arithmetic; no condition on the rotation other than being one."
  },
  {
   "property": "C115",
   "status": "proved",
   "theorems": [
    "CML.length_error",
    "CML.normalized_error",
    "CML.normalize_error",
    "CML.normalized_twice",
    "CML.qlength_error",
    "CML.qnormalize_error"
   ],
   "note": "Standard model of rounding: relative error at most u in each operation including the square root; no overflow or underflow."
  },
  {
   "property": "C116",
   "status": "partial",
   "theorems": [
    "CML.mmove_fixed_partial",
    "CML.massign_product_move_partial",
    "CML.vmove_fixed",
    "CML.mmove_fixed_strict_oob",
    "CML.mmove_fixed_tall_oob",
    "CML.mmove_fixed_wide",
    "CML.mmove_fixed_last_stale",
    "CML.mmove_fixed_false"
   ],
   "note": "False (negation proved) for column-major matrices that are not square. The partial theorems cover row-major and square matrices, vmove_fixed all vectors; the other theorems say what happens in the remaining case for all sizes."
  },
  {
   "property": "C117",
   "status": "partial",
   "theorems": [
    "CML.vrange",
    "CML.mrange",
    "CML.vassign_ptr",
    "CML.vassign_ptr_overlap_false",
    "CML.vnew_ptr",
    "CML.vnew_ptr_negative",
    "CML.vcopy_via_data",
    "CML.massign_raw",
    "CML.mnew_ptr",
    "CML.massign_data_partial",
    "CML.massign_data_transpose",
    "CML.massign_data_false",
    "CML.mview_data",
    "CML.mview_data_transpose",
    "CML.vview_move_new",
    "CML.vview_reset",
    "CML.vrandom",
    "CML.mrandom"
   ],
   "note": "False (negation proved) for x.assign(y.data()) with a column-major y; massign_data_partial covers row-major y, massign_data_transpose says what happens otherwise. All other claims are proved in full."
  },
  {
   "property": "C118",
   "status": "proved",
   "theorems": [
    "CML.stmt_refines",
    "CML.stmt_rejected",
    "CML.lin_program_refines",
    "CML.lin_program_completes",
    "CML.lin_program_rejects",
    "CML.lin_program_releases",
    "CML.Stmt.Means.unique",
    "CML.SMeans.unique",
    "CML.solve_program",
    "CML.inverse_program",
    "CML.transpose_program"
   ],
   "note": "Exact arithmetic (ordered fields). Usage rules are part of the meaning of a statement (Stmt.Means): inverses up to 4x4 (larger ones: C36), determinants above 4x4 and pivoted systems when every pivot exceeds epsilon (what happens otherwise: C35, C38). The allocation of the row order of lu_pivot is not modelled."
  },
  {
   "property": "C119",
   "status": "proved",
   "theorems": [
    "CML.rotationQuaternion_error",
    "CML.transformVector_error",
    "CML.transformPoint_error",
    "CML.rotate_by_quaternion_error",
    "CML.mulChain_drift",
    "CML.qMulChain_drift",
    "CML.qMulAssignChain_drift"
   ],
   "note": "Standard model of rounding: relative error at most u in each operation; no overflow or underflow. The matrices and quaternions of the chains need not come from the library: any operands within the given distance of exact rotations."
  },
  {
   "property": "C12",
   "status": "proved",
   "theorems": [
    "CML.vcross_is",
    "CML.vcross_bilinear",
    "CML.vcross_orthogonal",
    "CML.vcross_lagrange",
    "CML.vcross_jacobi",
    "CML.vcross_double",
    "CML.vcross_right_hand",
    "CML.vtriple_det",
    "CML.vtriple_cyclic",
    "CML.vperpDot_det",
    "CML.vtriple_perpDot_size_error"
   ],
   "note": ""
  },
  {
   "property": "C120",
   "status": "partial",
   "theorems": [
    "CML.vcmp_num_partial",
    "CML.meq_num_partial",
    "CML.vlt_nan",
    "CML.vgt_nan",
    "CML.veq_nan",
    "CML.veq_all_nan",
    "CML.veq_nan_refl_symm",
    "CML.veq_nan_false",
    "CML.vlt_nan_cycle",
    "CML.extremize_nan",
    "CML.meq_nan",
    "CML.meq_nan_false",
    "CML.qcmpB_eq",
    "CML.qeq_nan",
    "CML.qnan_self",
    "CML.qcmp_nan_false",
    "CML.nan_in_range",
    "CML.nan_bound",
    "CML.indexOfMax_nan_false"
   ],
   "note": "False (negations proved) as soon as an element is NaN. The partial theorems cover operands without NaN; the others say for all operands what the operators compute."
  },
  {
   "property": "C121",
   "status": "partial",
   "theorems": [
    "CML.intAngle_partial",
    "CML.realAngle_same",
    "CML.intAngle_false",
    "CML.exact_inside",
    "CML.intAngle_zero",
    "CML.rotation2D_int_false",
    "CML.rotationWorldAxis_int_false",
    "CML.rotationAxisAngle_int_false",
    "CML.rotationEuler_int_false",
    "CML.rotateVector_int_false",
    "CML.qRotationWorldAxis_int_false",
    "CML.qRotationAxisAngle_int_false",
    "CML.qRotationEuler_int_false",
    "CML.qIntAngle_small",
    "CML.qRotationWorldAxis_int_one",
    "CML.polarToCartesian_int_false",
    "CML.cylindricalToCartesian_int_false",
    "CML.sphericalToCartesian_int_false",
    "CML.degrad_int_false"
   ],
   "note": "False for every integer other than zero (negations proved, with what the functions return instead). The partial theorem covers zero; realAngle_same says that for real angles the functions are those of C49-C54, C67, C70."
  },
  {
   "property": "C122",
   "status": "partial",
   "theorems": [
    "CML.determinant_int_partial",
    "CML.normalized_int_partial",
    "CML.inverse_int_iff",
    "CML.inverse_int_error",
    "CML.inverse_int_singular",
    "CML.inverse_int_pivot_false",
    "CML.determinant_int_false",
    "CML.vlength_int",
    "CML.normalized_int",
    "CML.normalize_int",
    "CML.normalized_int_false"
   ],
   "note": "False for determinants and inverses from 5x5 on (witnesses), for inverses of matrices whose determinant is not a unit, and for normalize of vectors with two nonzero elements (for all of them). Integers are unbounded."
  },
  {
   "property": "C123",
   "status": "partial",
   "theorems": [
    "CML.in_turn_meant_iff",
    "CML.vset_in_turn",
    "CML.vset_partial",
    "CML.vset_resize_partial",
    "CML.vset_resize_dangling",
    "CML.mset_in_turn",
    "CML.mset_partial",
    "CML.mset_length",
    "CML.vset_own_false",
    "CML.vset_resize_false",
    "CML.mset_own_false",
    "CML.selfbuild_plain",
    "CML.selfbuild_plain_real",
    "CML.selfbuild_temporaries",
    "CML.rotationWorldAxis_own",
    "CML.affineAxisAngle_own",
    "CML.lookAt_sees_identity",
    "CML.selflook_plain",
    "CML.lookAt_forgets",
    "CML.lookAt_ownPosition_false",
    "CML.lookAt_ownUp_false",
    "CML.rotation_sees_identity",
    "CML.scale_sees_identity",
    "CML.uniformScale_sees_identity",
    "CML.scaleV_sees_identity",
    "CML.skewSymmetric_own",
    "CML.skewSymmetric2D_own",
    "CML.setBasisVector_basis",
    "CML.setBasisVector_cross",
    "CML.setBasisVectors_in_turn",
    "CML.setBasisVectors_partial",
    "CML.setTranslation_in_turn",
    "CML.setTranslation_partial",
    "CML.scale_own_false",
    "CML.setTranslation_own_false",
    "CML.setBasisVectors_false",
    "CML.setBasisVector_cross_false",
    "CML.skewSymmetric_own_false",
    "CML.rotationAxisAngle_own_false"
   ],
   "note": "False with witnesses for set and for every builder that stores in turn or starts from the identity or zero matrix; what these compute instead is proved for all inputs."
  },
  {
   "property": "C124",
   "status": "partial",
   "theorems": [
    "CML.polarInto_partial",
    "CML.polarInPlace_iff",
    "CML.polarInPlace_swapped_iff",
    "CML.polarInPlace_false",
    "CML.cylindricalInto_partial",
    "CML.cylindricalInPlace_false",
    "CML.sphericalInto_partial",
    "CML.sphericalInPlace_iff",
    "CML.eulerInto_partial",
    "CML.eulerInPlace_false",
    "CML.axisAngleInto_partial",
    "CML.axisAngleInto_offDiagonal",
    "CML.axisAngleInPlace_false",
    "CML.qAxisAngleInto_partial",
    "CML.qAxisAngleInPlace_false",
    "CML.translationInto_partial",
    "CML.translationInPlace_false",
    "CML.basisVectorsInto_partial",
    "CML.transposedBasisInto_partial",
    "CML.transposedBasisInPlace_false",
    "CML.transposedBasisInPlace_iff",
    "CML.orthonormalInto_any"
   ],
   "note": "False with witnesses: a function that stores one result before it has read all it needs goes wrong for outputs over the elements read later. The partial theorems name these elements function by function."
  },
  {
   "property": "C125",
   "status": "proved",
   "theorems": [
    "CML.mixed_get_holds",
    "CML.mixed_ty_real",
    "CML.mixed_get_exact",
    "CML.mixed_get_modEq",
    "CML.mixed_div_trunc",
    "CML.mixed_assign_run",
    "CML.mixed_assign_exact",
    "CML.mixed_assign_trunc",
    "CML.mixed_scalAssign_trunc",
    "CML.mixed_binAssign_trunc",
    "CML.mixed_halve_double",
    "CML.mixed_sub_addNeg"
   ],
   "note": "Integers of 8 to 64 bits with the conversions of the language; one floating-point type with exact arithmetic; conversion to a narrower signed type modulo its range (implementation-defined in C++17)."
  },
  {
   "property": "C126",
   "status": "partial",
   "theorems": [
    "CML.dotT_modEq",
    "CML.innerT_modEq",
    "CML.dotT_eq_innerT",
    "CML.dotT_exact",
    "CML.innerT_exact",
    "CML.dotT_narrow_defined",
    "CML.products_unsigned_defined",
    "CML.dotT_u16_iff",
    "CML.innerT_u8_iff",
    "CML.unsigned_defined_false"
   ],
   "note": "Undefined for unsigned elements of 16 bits (dot) and for sums of products of bytes (matrix products); the exact conditions are proved."
  },
  {
   "property": "C127",
   "status": "partial",
   "theorems": [
    "CML.mixedCmp_real",
    "CML.mixedCmp_int",
    "CML.mixedCmp_partial",
    "CML.mixedEq_false",
    "CML.mixedLt_false"
   ],
   "note": "False for negative elements compared with unsigned ones; what is compared instead is proved."
  },
  {
   "property": "C128",
   "status": "partial",
   "theorems": [
    "CML.wrapI_partial",
    "CML.wrapI_overflow",
    "CML.wrapI_int_iff",
    "CML.wrapI_unsigned_iff",
    "CML.wrapI_unsigned_false",
    "CML.wrapI_narrow_false",
    "CML.wrapI_wide_false",
    "CML.mapRangeI_spec",
    "CML.mapRangeI_iff",
    "CML.mapRangeI_partial"
   ],
   "note": "False where the differences do not fit (wrap) and between the ends of the range (map_range); the partial theorems cover the rest. double has 53 bits and rounds to nearest even."
  },
  {
   "property": "C129",
   "status": "partial",
   "theorems": [
    "CML.orthographicI_spec",
    "CML.perspectiveI_spec",
    "CML.orthographicI_iff",
    "CML.perspectiveI_iff",
    "CML.projectionI_collapse",
    "CML.projectionWHI_false",
    "CML.perspectiveFovI_false",
    "CML.projectionI_partial"
   ],
   "note": "False for every box but unit boxes (exact condition proved). Integers are unbounded."
  },
  {
   "property": "C13",
   "status": "proved",
   "theorems": [
    "CML.normalized_spec",
    "CML.normalize_spec"
   ],
   "note": ""
  },
  {
   "property": "C130",
   "status": "proved",
   "theorems": [
    "CML.projection_mirror",
    "CML.projectionWH_mirror",
    "CML.perspectiveWH_inj",
    "CML.perspectiveFov_agree",
    "CML.perspectiveFov_mirror"
   ],
   "note": "Exact arithmetic."
  },
  {
   "property": "C131",
   "status": "partial",
   "theorems": [
    "CML.quat_int_unit",
    "CML.qinv_int",
    "CML.qinverse_int",
    "CML.qinv_int_iff",
    "CML.qinv_int_false",
    "CML.qinv_int_partial",
    "CML.qlength_int",
    "CML.qnormalize_int",
    "CML.qnormalize_int_false",
    "CML.qnormalize_int_partial"
   ],
   "note": "False outside the units (inverse) and their multiples (normalize); exact conditions proved. Integers are unbounded."
  },
  {
   "property": "C132",
   "status": "proved",
   "theorems": [
    "CML.fov_roundtrip",
    "CML.fov_roundtrip_iff",
    "CML.zoom_roundtrip",
    "CML.zoom_fov_commute",
    "CML.zoom_monotone",
    "CML.fov_undefined",
    "CML.fov_perspective",
    "CML.zoom_perspective"
   ],
   "note": "Exact arithmetic. The range -pi..pi is part of the statement; outside of it the result is characterised."
  },
  {
   "property": "C133",
   "status": "partial",
   "theorems": [
    "CML.randomConeSelf_partial",
    "CML.randomCone2DSelf_spec",
    "CML.randomCone2DSelf_false",
    "CML.randomConeSelf_two_false",
    "CML.randomConeSelf_general"
   ],
   "note": "False (negations proved) in every dimension; the partial theorem covers directions along the first axis in two dimensions."
  },
  {
   "property": "C134",
   "status": "proved",
   "theorems": [
    "CML.builders_real",
    "CML.Trig.rounded_accurate",
    "CML.rotation2D_error",
    "CML.rotationWorldAxis_error",
    "CML.rotationAxisAngle_error",
    "CML.rotationEuler_error",
    "CML.qRotationAxisAngle_error"
   ],
   "note": "Standard model of rounding; no overflow or underflow. builders_real says that the builders are those of C49-C51 and C54 for real numbers."
  },
  {
   "property": "C135",
   "status": "partial",
   "theorems": [
    "CML.toEulerAs_partial",
    "CML.toEulerAs_spec",
    "CML.toEulerAs_iff",
    "CML.toEulerAs_real",
    "CML.toEulerAs_false"
   ],
   "note": "Fails for orders with a repeated axis outside of gimbal lock: rotation.tpp:530-531 converts the third angle to the type of the first one. toEulerAs_iff says exactly when the result is right; toEulerAs_false says what is returned instead."
  },
  {
   "property": "C136",
   "status": "partial",
   "theorems": [
    "CML.toAxisAngleAs_partial",
    "CML.toAxisAngleAs_false",
    "CML.toAxisAngleAs_ub"
   ],
   "note": "Holds for an axis of the element type of the matrix and any type of the angle (toAxisAngleAs_partial). Fails for an axis with integral elements: rotations by acute angles with |sin| < 1/2 are returned as no rotation (toAxisAngleAs_false), those by obtuse ones divide by zero (toAxisAngleAs_ub)."
  },
  {
   "property": "C137",
   "status": "partial",
   "theorems": [
    "CML.qToAxisAngleAs_partial",
    "CML.qToAxisAngleAs_real",
    "CML.qToAxisAngleAs_int",
    "CML.qToAxisAngleAs_iff",
    "CML.qToAxisAngleAs_axis"
   ],
   "note": "Holds for an axis of the element type and an angle of the same or a wider type. Fails for an integral angle, since the arguments of atan2 are converted to the type of the angle first: all angles are returned as zero, half turns as two (qToAxisAngleAs_int, qToAxisAngleAs_iff says when this is right). Fails for an integral axis (qToAxisAngleAs_axis)."
  },
  {
   "property": "C138",
   "status": "proved",
   "theorems": [
    "CML.rotateVectorG_real",
    "CML.rotateVector_error",
    "CML.rotateVector_unit_error"
   ],
   "note": "Standard model of rounding; no overflow or underflow."
  },
  {
   "property": "C139",
   "status": "proved",
   "theorems": [
    "CML.projections_field",
    "CML.orthographic_error",
    "CML.perspective_error",
    "CML.projections_round_fails"
   ],
   "note": "Standard model of rounding; no overflow or underflow."
  },
  {
   "property": "C14",
   "status": "proved",
   "theorems": [
    "CML.subvector_erases",
    "CML.subvector_append_last",
    "CML.assign_append",
    "CML.subvector_constructor",
    "CML.subvector_unchecked"
   ],
   "note": ""
  },
  {
   "property": "C15",
   "status": "proved",
   "theorems": [
    "CML.extremize_spec",
    "CML.extremize_size_error",
    "CML.extremize_twice",
    "CML.extremize_comm"
   ],
   "note": ""
  },
  {
   "property": "C16",
   "status": "partial",
   "theorems": [
    "CML.scalAssign_partial",
    "CML.scalAssign_self",
    "CML.scalAssign_false",
    "CML.mscalAssign_partial",
    "CML.mscalAssign_self",
    "CML.mscalAssign_false"
   ],
   "note": "False when the scalar aliases an element of the destination (negation proved); the partial theorem covers scalars outside the destination."
  },
  {
   "property": "C17",
   "status": "partial",
   "theorems": [
    "CML.opAssign_same_size_partial",
    "CML.opAssign_longer_ub",
    "CML.opAssign_shorter_truncates",
    "CML.opAssign_false"
   ],
   "note": "False for dynamic destinations (negation proved): a longer right side reads uninitialised elements, a shorter one truncates. The partial theorem covers equal sizes."
  },
  {
   "property": "C18",
   "status": "proved",
   "theorems": [
    "CML.hashCombine32_bij_elem",
    "CML.hashCombine32_bij_state",
    "CML.hashCombine64_bij_elem",
    "CML.hashCombine64_bij_state",
    "CML.vectorHash32_separates",
    "CML.vectorHash64_separates",
    "CML.vectorHash_ne_of_single_diff",
    "CML.vectorHash32_ne_of_single_diff",
    "CML.vectorHash64_not_injective"
   ],
   "note": ""
  },
  {
   "property": "C19",
   "status": "proved",
   "theorems": [
    "CML.vhistory_owned",
    "CML.history_no_leak",
    "CML.history_released",
    "CML.history_no_ub",
    "CML.vhistory_access"
   ],
   "note": ""
  },
  {
   "property": "C20",
   "status": "proved",
   "theorems": [
    "CML.vresize_prefix",
    "CML.vresize_errors"
   ],
   "note": ""
  },
  {
   "property": "C21",
   "status": "partial",
   "theorems": [
    "CML.resize_reads_destroyed_partial",
    "CML.resize_reads_destroyed_false",
    "CML.mresize_reads_destroyed_false"
   ],
   "note": "False for every element type with a destructor (negation proved for all sizes); holds for trivial elements and when nothing is kept. Throwing element copies are not modelled."
  },
  {
   "property": "C22",
   "status": "proved",
   "theorems": [
    "CML.vmove_swaps",
    "CML.vmove_values",
    "CML.vmove_self",
    "CML.vmove_new",
    "CML.mmove_swaps",
    "CML.mmove_self",
    "CML.mmove_new"
   ],
   "note": ""
  },
  {
   "property": "C23",
   "status": "proved",
   "theorems": [
    "CML.vcopy_independent",
    "CML.vcopy_new_independent",
    "CML.later_keeps",
    "CML.writes_elsewhere",
    "CML.vcopy_fixed_independent",
    "CML.view_copy_shares",
    "CML.view_assign_through",
    "CML.view_move_rebinds",
    "CML.view_self_move"
   ],
   "note": ""
  },
  {
   "property": "C24",
   "status": "proved",
   "theorems": [
    "CML.matrix_index_bijection",
    "CML.matrix_put_get"
   ],
   "note": ""
  },
  {
   "property": "C25",
   "status": "proved",
   "theorems": [
    "CML.massign_elementwise",
    "CML.mopAssign_elementwise",
    "CML.massign_product",
    "CML.massign_resizing",
    "CML.massign_checked",
    "CML.massign_missized",
    "CML.mzero_spec",
    "CML.midentity_spec",
    "CML.mfill_spec"
   ],
   "note": "massign_product is the assignment from a readable_matrix; if a fixed-size destination has exactly the type of the product the move assignment is used instead, see C116."
  },
  {
   "property": "C26",
   "status": "proved",
   "theorems": [
    "CML.massign_list",
    "CML.massign_list_length",
    "CML.massign_ptr",
    "CML.mnew_array"
   ],
   "note": ""
  },
  {
   "property": "C27",
   "status": "proved",
   "theorems": [
    "CML.mtranspose_fixed",
    "CML.mtranspose_fixed_twice",
    "CML.mtranspose_fixed_rect",
    "CML.mtranspose_dyn",
    "CML.mtranspose_dyn_twice",
    "CML.mtranspose_dyn_bad_alloc"
   ],
   "note": ""
  },
  {
   "property": "C28",
   "status": "partial",
   "theorems": [
    "CML.mresize_partial",
    "CML.mresize_linear",
    "CML.mresize_false",
    "CML.mresize_relabel_false",
    "CML.mresize_errors"
   ],
   "note": "False in general (negations proved): storage is copied linearly. The partial theorem covers resizes that keep the storage line length."
  },
  {
   "property": "C29",
   "status": "proved",
   "theorems": [
    "CML.matMul_product",
    "CML.matVec_product",
    "CML.vecMat_product",
    "CML.product_size_error",
    "CML.product_assoc",
    "CML.product_distrib",
    "CML.product_identity",
    "CML.product_transpose",
    "CML.product_vector",
    "CML.product_vector_transpose",
    "CML.product_self_assign"
   ],
   "note": ""
  },
  {
   "property": "C30",
   "status": "partial",
   "theorems": [
    "CML.product_inner_zero_partial",
    "CML.product_inner_zero_ub",
    "CML.product_inner_zero_false"
   ],
   "note": "False (negation proved): with inner dimension zero and a non-empty result the code reads element 0 of empty operands. The partial theorem covers empty results."
  },
  {
   "property": "C31",
   "status": "proved",
   "theorems": [
    "CML.row_col_spec",
    "CML.row_col_negative",
    "CML.set_row_spec",
    "CML.set_col_spec",
    "CML.set_row_col_size",
    "CML.set_row_alias_false",
    "CML.basis_element_spec",
    "CML.set_basis_element_spec",
    "CML.basis_vector_roundtrip",
    "CML.basis_vector_errors"
   ],
   "note": "set_row_alias_false records that set_row from a column of the same matrix is outside the theorem's hypotheses and goes wrong."
  },
  {
   "property": "C32",
   "status": "proved",
   "theorems": [
    "CML.trace_sum",
    "CML.trace_square",
    "CML.trace_linear",
    "CML.trace_cyclic",
    "CML.trace_small",
    "CML.trace_empty_ub"
   ],
   "note": ""
  },
  {
   "property": "C33",
   "status": "proved",
   "theorems": [
    "CML.det_small_ring",
    "CML.determinant_small",
    "CML.square_required"
   ],
   "note": "Closed formulas for 2x2, 3x3, 4x4 equal the mathematical determinant over any commutative ring; non-square input is rejected."
  },
  {
   "property": "C34",
   "status": "partial",
   "theorems": [
    "CML.determinant_partial",
    "CML.determinant_false"
   ],
   "note": "The LU-based determinant is correct when every pivot found by the code is admissible; determinant_false shows it is wrong for diag(-1,1,1,1,1) and undefined for 0x0 (missing fabs in the pivot search)."
  },
  {
   "property": "C35",
   "status": "proved",
   "theorems": [
    "CML.inverse_small",
    "CML.inverse_small_singular",
    "CML.square_required"
   ],
   "note": "Closed-form inverses for 2x2, 3x3, 4x4: two-sided inverse exactly when the determinant is non-zero."
  },
  {
   "property": "C36",
   "status": "partial",
   "theorems": [
    "CML.inverse_pivot_partial",
    "CML.inverse_one",
    "CML.inverse_pivot_false",
    "CML.inverse_swaps_false"
   ],
   "note": "What Gauss-Jordan computes is characterised for every run in which the chosen pivots are fresh and non-zero (inverse up to the column permutation); the two defects are proved with witnesses."
  },
  {
   "property": "C37",
   "status": "proved",
   "theorems": [
    "CML.lu_factors",
    "CML.lu_ok_iff",
    "CML.lu_unique",
    "CML.lu_square_required"
   ],
   "note": "Doolittle factorisation: factors multiply back, succeed exactly when the leading minors do not vanish, unique."
  },
  {
   "property": "C38",
   "status": "proved",
   "theorems": [
    "CML.lu_pivot_factors",
    "CML.lu_pivot_order",
    "CML.lu_pivot_total",
    "CML.lu_pivot_square_required"
   ],
   "note": "Pivoted LU: order is a permutation, L*U is the row-permuted input, no undefined behaviour."
  },
  {
   "property": "C39",
   "status": "partial",
   "theorems": [
    "CML.lu_pivot_sign_partial",
    "CML.lu_pivot_sign_false"
   ],
   "note": "sign is the permutation sign when no pivot is rejected; zero sign does not mean singular: witness diag(-1,1)."
  },
  {
   "property": "C40",
   "status": "proved",
   "theorems": [
    "CML.lu_solve_spec",
    "CML.lu_solve_lu",
    "CML.lu_solve_new",
    "CML.lu_solve_size_error",
    "CML.lu_pivot_solve_singular",
    "CML.lu_pivot_solve_spec"
   ],
   "note": "LU solve satisfies A x = b."
  },
  {
   "property": "C41",
   "status": "proved",
   "theorems": [
    "CML.mexpr_refines",
    "CML.mexpr_build_iff"
   ],
   "note": ""
  },
  {
   "property": "C42",
   "status": "proved",
   "theorems": [
    "CML.meq_iff",
    "CML.meq_equivalence"
   ],
   "note": ""
  },
  {
   "property": "C43",
   "status": "proved",
   "theorems": [
    "CML.qmul_hamilton",
    "CML.qmul_assoc",
    "CML.qmul_distrib",
    "CML.qmul_norm",
    "CML.qmul_identity",
    "CML.qidentity_zero",
    "CML.qexpr_value",
    "CML.qrun_value"
   ],
   "note": ""
  },
  {
   "property": "C44",
   "status": "proved",
   "theorems": [
    "CML.qmul_conj",
    "CML.qmul_inverse",
    "CML.qconj_mul",
    "CML.qconj_inverse_inplace",
    "CML.qinv_zero",
    "CML.qrun_undefined",
    "CML.qexpr_value"
   ],
   "note": "The product with the conjugate or inverse is taken after storing it in a variable, because q * conjugate(q) does not compile (C85)."
  },
  {
   "property": "C45",
   "status": "proved",
   "theorems": [
    "CML.qorder_independent",
    "CML.qdot_eq"
   ],
   "note": ""
  },
  {
   "property": "C46",
   "status": "partial",
   "theorems": [
    "CML.qassign_cross_order_false",
    "CML.qassign_same_order_partial",
    "CML.qassign_cross_order"
   ],
   "note": "False (negation proved): elements are copied by storage position. The partial theorem covers operands of the same order; qassign_cross_order says what happens otherwise."
  },
  {
   "property": "C47",
   "status": "partial",
   "theorems": [
    "CML.qexp_partial",
    "CML.qexp_formula_partial",
    "CML.qlog_exp_partial",
    "CML.qexp_log_partial",
    "CML.qexp_real_false"
   ],
   "note": "Proved for non-zero imaginary part; for real quaternions exp and log divide by zero (negation proved)."
  },
  {
   "property": "C48",
   "status": "proved",
   "theorems": [
    "CML.qnormalize_unit",
    "CML.qmul_assign",
    "CML.qrun_value"
   ],
   "note": ""
  },
  {
   "property": "C49",
   "status": "proved",
   "theorems": [
    "CML.rotationWorldAxis_spec",
    "CML.rotationWorldAxis_rotation",
    "CML.rotationWorldAxis_concat",
    "CML.rotationWorldXYZ",
    "CML.rotationWorldAxis_throws",
    "CML.rotation2D_spec",
    "CML.rotation2D_concat",
    "CML.rotation2D_throws",
    "CML.rodrigues_spec"
   ],
   "note": ""
  },
  {
   "property": "C50",
   "status": "proved",
   "theorems": [
    "CML.rotationAxisAngle_spec",
    "CML.rotationAxisAngle_rotation",
    "CML.rotationAxisAngle_concat",
    "CML.rotationAxisAngle_rotateVector",
    "CML.rotationAxisAngle_throws",
    "CML.rodrigues_spec"
   ],
   "note": ""
  },
  {
   "property": "C51",
   "status": "proved",
   "theorems": [
    "CML.rotationEuler_spec",
    "CML.rotationEuler_rotation",
    "CML.rotationEuler_concat",
    "CML.rotationEulerV_spec",
    "CML.rotationEuler_throws",
    "CML.eulerRot_order_matters"
   ],
   "note": "The header comment gives the opposite order; eulerRot_order_matters shows that the two differ."
  },
  {
   "property": "C52",
   "status": "partial",
   "theorems": [
    "CML.rotationEulerDerivatives_partial",
    "CML.rotationEulerDerivatives_odd_wrong",
    "CML.rotationEulerDerivatives_spec",
    "CML.rotationEulerDerivatives_throws",
    "CML.rotationEulerDerivativesV_spec"
   ],
   "note": "Holds for xyz, yzx, zxy. False for xzy, yxz, zyx: the negative of the derivative is returned (rotationEulerDerivatives_odd_wrong); rotationEulerDerivatives_spec states exactly what is returned for all six orders."
  },
  {
   "property": "C53",
   "status": "proved",
   "theorems": [
    "CML.rotationQuaternion_spec",
    "CML.rotationQuaternion_ok",
    "CML.rotationQuaternion_neg",
    "CML.rotationQuaternion_mul",
    "CML.rotationQuaternion_throws"
   ],
   "note": ""
  },
  {
   "property": "C54",
   "status": "proved",
   "theorems": [
    "CML.qRotationWorldAxis_spec",
    "CML.qRotationWorldAxis_throws",
    "CML.qRotationWorldXYZ",
    "CML.qRotationAxisAngle_spec",
    "CML.qRotationEuler_spec",
    "CML.qRotationEulerV_spec",
    "CML.qRotation_throws"
   ],
   "note": ""
  },
  {
   "property": "C55",
   "status": "proved",
   "theorems": [
    "CML.qRotationMatrix_ok",
    "CML.qRotationMatrix_spec",
    "CML.qRotationMatrix_roundtrip",
    "CML.qRotationMatrix_throws"
   ],
   "note": ""
  },
  {
   "property": "C56",
   "status": "proved",
   "theorems": [
    "CML.toAxisAngle_spec",
    "CML.toAxisAngle_zero",
    "CML.toAxisAngle_roundtrip",
    "CML.rotationAxisAngle_extract",
    "CML.toAxisAngle_throws",
    "CML.qToAxisAngle_spec",
    "CML.qRotationAxisAngle_extract"
   ],
   "note": "over exact reals; tolerance 0 covers every rotation, a positive tolerance is covered outside of the band in which the code rounds to a symmetric matrix or a real quaternion"
  },
  {
   "property": "C57",
   "status": "proved",
   "theorems": [
    "CML.toEuler_spec",
    "CML.toEuler_zero",
    "CML.toEuler_roundtrip",
    "CML.rotationEuler_extract",
    "CML.toEuler_throws",
    "CML.qToEuler_spec"
   ],
   "note": "over exact reals; all twelve orders and the gimbal lock branch; a positive tolerance is covered outside of the band"
  },
  {
   "property": "C58",
   "status": "proved",
   "theorems": [
    "CML.orthonormalBasis_spec",
    "CML.orthonormalBasis_parallel",
    "CML.orthonormalBasis_throws",
    "CML.orthonormalBasis2D_spec",
    "CML.orthonormalBasis2D_throws",
    "CML.rotationAlign_spec",
    "CML.rotationAlign_throws",
    "CML.rotationAlign2D_spec",
    "CML.rotationAimAt_spec",
    "CML.qRotationAlign_spec",
    "CML.qRotationAimAt_spec"
   ],
   "note": "over exact reals; parallel vectors are a division by zero"
  },
  {
   "property": "C59",
   "status": "proved",
   "theorems": [
    "CML.lookAt_spec",
    "CML.lookAt_variants",
    "CML.lookAt_parallel",
    "CML.lookAt_throws",
    "CML.affineAxisAngle_spec"
   ],
   "note": "over exact reals; up parallel to the view direction is a division by zero"
  },
  {
   "property": "C60",
   "status": "proved",
   "theorems": [
    "CML.concat_linOf",
    "CML.concat_affOf",
    "CML.concat_transform",
    "CML.concat_transform4D",
    "CML.concat_throws"
   ],
   "note": "The header comment of concat.h states the opposite order of application; the code and C60 apply the first argument first."
  },
  {
   "property": "C61",
   "status": "proved",
   "theorems": [
    "CML.transformVector2D_spec",
    "CML.transformPoint2D_spec",
    "CML.transformVector_spec",
    "CML.transformPoint_spec",
    "CML.transformPoint4D_spec",
    "CML.transformPoint4D_divZero",
    "CML.transformVector4D_spec",
    "CML.transform_throws"
   ],
   "note": ""
  },
  {
   "property": "C62",
   "status": "proved",
   "theorems": [
    "CML.invertRT_spec",
    "CML.invertRTOnly_spec",
    "CML.invertRTOnly2D_spec",
    "CML.invertRT_inverse",
    "CML.invertRTOnly_inverse",
    "CML.invertRT_throws"
   ],
   "note": ""
  },
  {
   "property": "C63",
   "status": "proved",
   "theorems": [
    "CML.setTranslation_spec",
    "CML.setTranslation_variants",
    "CML.getTranslation_spec",
    "CML.set_get_translation",
    "CML.translation_spec",
    "CML.translation_variants",
    "CML.setTranslation_throws",
    "CML.setTranslation2D_spec",
    "CML.getTranslation2D_spec",
    "CML.translation2D_spec",
    "CML.scale3D_spec",
    "CML.inverseScale3D_spec",
    "CML.scale2D_spec",
    "CML.inverseScale2D_spec",
    "CML.scale_throws"
   ],
   "note": ""
  },
  {
   "property": "C64",
   "status": "proved",
   "theorems": [
    "CML.orthographic_spec",
    "CML.orthographic_fails",
    "CML.orthographic_box",
    "CML.orthographicWH_eq"
   ],
   "note": ""
  },
  {
   "property": "C65",
   "status": "proved",
   "theorems": [
    "CML.perspective_spec",
    "CML.perspective_fails",
    "CML.perspective_frustum",
    "CML.perspective_depth",
    "CML.perspectiveWH_eq",
    "CML.perspectiveXfov_spec",
    "CML.perspectiveYfov_spec",
    "CML.perspectiveFov_fails"
   ],
   "note": ""
  },
  {
   "property": "C66",
   "status": "proved",
   "theorems": [
    "CML.frustumPlanes_spec",
    "CML.frustumPlanes_clip",
    "CML.frustumPlanes2_clip",
    "CML.frustumPlanes_perspective",
    "CML.frustumPlanes_throws",
    "CML.Plane.normalized_spec",
    "CML.extractFrustumPlanes_normalized",
    "CML.extractFrustumPlanes_throws",
    "CML.extractFrustumPlanes2_normalized"
   ],
   "note": "Normalising a plane with a zero normal divides by zero; this is proved as the only other outcome."
  },
  {
   "property": "C67",
   "status": "proved",
   "theorems": [
    "CML.polarToCartesian_spec",
    "CML.cylindricalToCartesian_spec",
    "CML.sphericalToCartesian_spec",
    "CML.cartesianToPolar_spec",
    "CML.cartesianToCylindrical_spec",
    "CML.cartesianToSpherical_spec",
    "CML.polar_roundtrip",
    "CML.polar_roundtrip'",
    "CML.cylindrical_roundtrip",
    "CML.cylindrical_roundtrip'",
    "CML.spherical_roundtrip",
    "CML.spherical_roundtrip'",
    "CML.coord_throws"
   ],
   "note": "Inside of the tolerance band the round trip moves the point by at most twice its distance from the axis (origin)."
  },
  {
   "property": "C68",
   "status": "proved",
   "theorems": [
    "CML.signedAngle2D_spec",
    "CML.planeRot_injective",
    "CML.signedAngle2D_antisymm",
    "CML.unsignedAngle2D_spec",
    "CML.signedAngle2D_scale",
    "CML.unsignedAngle_spec",
    "CML.unsignedAngle_symm",
    "CML.unsignedAngle_scale",
    "CML.signedAngle_spec",
    "CML.signedAngle_rotates",
    "CML.angle_throws"
   ],
   "note": ""
  },
  {
   "property": "C69",
   "status": "proved",
   "theorems": [
    "CML.projectToVector_spec",
    "CML.projectToVector_zero",
    "CML.projectToHplane_spec",
    "CML.project_decompose",
    "CML.projectToVector_scale",
    "CML.project_throws",
    "CML.perp_spec",
    "CML.perp_throws",
    "CML.manhattan_spec",
    "CML.manhattan_metric",
    "CML.manhattan_throws"
   ],
   "note": ""
  },
  {
   "property": "C70",
   "status": "proved",
   "theorems": [
    "CML.rotateVector_isometry",
    "CML.rotateVector_add",
    "CML.rotateVector_rodrigues",
    "CML.rotateVector_throws"
   ],
   "note": ""
  },
  {
   "property": "C71",
   "status": "proved",
   "theorems": [
    "CML.skewSymmetric_spec",
    "CML.skewSymmetric2D_spec",
    "CML.skewSymmetric_throws"
   ],
   "note": ""
  },
  {
   "property": "C72",
   "status": "partial",
   "theorems": [
    "CML.linearTransform_partial",
    "CML.linearTransform_own",
    "CML.linearTransform_own_false",
    "CML.affineTransform_partial",
    "CML.affineTransform_own_false"
   ],
   "note": "False when the target is also the source (negations proved): the target is set to identity before the source is read."
  },
  {
   "property": "C73",
   "status": "proved",
   "theorems": [
    "CML.sizeTagPromote_spec",
    "CML.sizeTagPromote_laws",
    "CML.sizeCheckPromote_spec",
    "CML.sizeCheckPromote_laws",
    "CML.basisTagPromote_laws",
    "CML.layoutTagPromote_laws",
    "CML.basisTagPromote_not_assoc",
    "CML.selectorPromote_laws",
    "CML.selectorPromote_spec"
   ],
   "note": ""
  },
  {
   "property": "C74",
   "status": "partial",
   "theorems": [
    "CML.randomUnit_spec",
    "CML.randomUnit_continues",
    "CML.randomUnit_ends_iff",
    "CML.randomUnit_throws",
    "CML.randomCone2D_spec",
    "CML.randomConeMap_spec",
    "CML.randomConeMap_parallel",
    "CML.randomCone_two",
    "CML.randomCone_partial",
    "CML.randomCone_parallel",
    "CML.parallel_of_one",
    "CML.randomCone_one",
    "CML.randomCone_throws"
   ],
   "note": "False as stated when the drawn vector is parallel to d: the code divides by sin(0) (randomCone_parallel); with one element this always happens (randomCone_one). Proved for all other draws, and without exception in two dimensions."
  },
  {
   "property": "C75",
   "status": "proved",
   "theorems": [
    "CML.quaternionGetBasisVector_ok",
    "CML.quaternionGetBasisVector_spec",
    "CML.quaternionGetBasisVectors_frame",
    "CML.quaternionGetBasisVector_throws"
   ],
   "note": ""
  },
  {
   "property": "C76",
   "status": "proved",
   "theorems": [
    "CML.assign_checked",
    "CML.assign_missized"
   ],
   "note": ""
  },
  {
   "property": "C77",
   "status": "partial",
   "theorems": [
    "CML.vprint_partial",
    "CML.vprint_empty_ub",
    "CML.vprint_false"
   ],
   "note": "False for empty vectors (negation proved); the partial theorem covers all non-empty vectors."
  },
  {
   "property": "C78",
   "status": "proved",
   "theorems": [
    "CML.mhistory_owned",
    "CML.mhistory_access",
    "CML.mcopy_independent",
    "CML.history_no_leak",
    "CML.history_released",
    "CML.history_no_ub"
   ],
   "note": ""
  },
  {
   "property": "C79",
   "status": "partial",
   "theorems": [
    "CML.cross_operands_partial",
    "CML.cross_dynamic_temporary_throws",
    "CML.cross_dynamic_product_throws",
    "CML.cross_total_false"
   ],
   "note": "False for dynamically sized temporaries (negation proved); the partial theorem covers named and compile-time sized operands."
  },
  {
   "property": "C80",
   "status": "partial",
   "theorems": [
    "CML.vexpr_static_size_partial",
    "CML.mexpr_static_size_partial",
    "CML.subvector_size_one",
    "CML.static_size_false"
   ],
   "note": "False (static_size_false) for the subvector of a one-element fixed-size vector, the outer product of a fixed-size and a dynamic vector, and sums and products of transposes of fixed-size non-square matrices; the partial theorems cover all other expressions."
  },
  {
   "property": "C81",
   "status": "partial",
   "theorems": [
    "CML.basis_node_size_partial",
    "CML.basis_node_size_iff",
    "CML.basis_node_size_false"
   ],
   "note": "False for non-square column-basis matrices (negation proved)."
  },
  {
   "property": "C82",
   "status": "partial",
   "theorems": [
    "CML.ctor_throw_partial",
    "CML.mnew_array_leaks_false"
   ],
   "note": "False for matrix(rows, cols, array) with an array of the wrong length: the block is leaked (negation proved). All other constructors leak nothing."
  },
  {
   "property": "C83",
   "status": "proved",
   "theorems": [
    "CML.history_strong_exception",
    "CML.vresize_errors"
   ],
   "note": ""
  },
  {
   "property": "C84",
   "status": "proved",
   "theorems": [
    "CML.vzero_spec",
    "CML.vfill_spec",
    "CML.vput_spec",
    "CML.vput_oob",
    "CML.vcardinal_spec",
    "CML.vlist_spec",
    "CML.vlist_missized",
    "CML.vlist_resizing"
   ],
   "note": ""
  },
  {
   "property": "C85",
   "status": "partial",
   "theorems": [
    "CML.qmul_mixed_false",
    "CML.qmul_accepted_partial"
   ],
   "note": "False (negation proved): both branches of the conditional operator in operator* must have the same type, so the operands must have equal types."
  },
  {
   "property": "C86",
   "status": "proved",
   "theorems": [
    "CML.qeq_iff",
    "CML.qlt_iff",
    "CML.qtrichotomy"
   ],
   "note": ""
  },
  {
   "property": "C87",
   "status": "partial",
   "theorems": [
    "CML.qop_assign_partial",
    "CML.qscal_assign_partial",
    "CML.qscal_assign_alias_false",
    "CML.qop_assign_cross_order_false"
   ],
   "note": "False when the scalar refers to an element of the target and when the orders differ (negations proved)."
  },
  {
   "property": "C88",
   "status": "proved",
   "theorems": [
    "CML.qassign_list",
    "CML.qassign_vec",
    "CML.qidentity_zero"
   ],
   "note": ""
  },
  {
   "property": "C89",
   "status": "proved",
   "theorems": [
    "CML.setBasisVector_spec",
    "CML.setTransposedBasisVector_spec",
    "CML.setBasisVector2D_spec",
    "CML.setBasisVectors_spec",
    "CML.setTransposedBasisVectors_spec",
    "CML.setBasisVectors2D_spec",
    "CML.getBasisVector_spec",
    "CML.getBasisVector2D_spec",
    "CML.getBasisVectors_spec",
    "CML.getBasisVectorND_spec",
    "CML.basisVector_throws",
    "CML.basisVector2D_throws"
   ],
   "note": ""
  },
  {
   "property": "C90",
   "status": "proved",
   "theorems": [
    "CML.constants_accurate",
    "CML.constants_related",
    "CML.deg_rad",
    "CML.deg_accurate",
    "CML.acosSafe_spec",
    "CML.asinSafe_spec",
    "CML.acosSafe_add_asinSafe",
    "CML.sqrtSafe_spec",
    "CML.invSqrt_spec",
    "CML.invSqrt_zero",
    "CML.randomPolar_spec",
    "CML.scalar_length_spec"
   ],
   "note": "Literals taken exactly, without rounding to double."
  },
  {
   "property": "C91",
   "status": "proved",
   "theorems": [
    "CML.mprint_spec",
    "CML.mprint_elements",
    "CML.mprint_injective",
    "CML.qprint_spec"
   ],
   "note": ""
  },
  {
   "property": "C92",
   "status": "partial",
   "theorems": [
    "CML.allocDisambiguate_laws",
    "CML.allocDisambiguate_user",
    "CML.storagePromote_total",
    "CML.storagePromote_comm",
    "CML.storagePromote_unit",
    "CML.storagePromote_choice",
    "CML.storagePromote_not_assoc",
    "CML.storagePromote_assoc_partial"
   ],
   "note": "Associativity is false for three different user allocators (storagePromote_not_assoc) and proved for operands without conflicting allocators; everything else holds."
  },
  {
   "property": "C93",
   "status": "partial",
   "theorems": [
    "CML.transpose_product_truncates",
    "CML.transpose_product_overruns",
    "CML.transpose_vector_ub",
    "CML.transpose_sum_rejected",
    "CML.transpose_sum_overruns",
    "CML.transpose_product_false",
    "CML.transpose_sum_dynamic_partial"
   ],
   "note": "False for every non-square fixed-size matrix (negations proved): the storage type of the transpose has the dimensions of its operand. Proved for sums assigned to a dynamic matrix; square and dynamic operands are covered by C25, C29 and C41."
  },
  {
   "property": "C94",
   "status": "partial",
   "theorems": [
    "CML.outer_mixed_rejected",
    "CML.outer_mixed_dynamic_partial"
   ],
   "note": "False for fixed-size destinations (rejected at compile time, outer_mixed_rejected); proved for dynamic destinations."
  },
  {
   "property": "C95",
   "status": "proved",
   "theorems": [
    "CML.dot_backward_stable",
    "CML.dot_error",
    "CML.length_squared_error",
    "CML.length_squared_pos"
   ],
   "note": "Standard model of rounding: relative error at most u in each operation; no overflow or underflow."
  },
  {
   "property": "C96",
   "status": "proved",
   "theorems": [
    "CML.matMul_error",
    "CML.matVec_error",
    "CML.vecMat_error"
   ],
   "note": "Standard model of rounding: relative error at most u in each operation; no overflow or underflow."
  },
  {
   "property": "C97",
   "status": "proved",
   "theorems": [
    "CML.lu_backward_stable",
    "CML.lu_rounded_outcome",
    "CML.lu_pivot_backward_stable",
    "CML.lu_pivot_rounded_returns"
   ],
   "note": "Standard model of rounding: relative error at most u in each operation; no overflow or underflow."
  },
  {
   "property": "C98",
   "status": "proved",
   "theorems": [
    "CML.lu_solve_backward_stable",
    "CML.lu_lu_solve_backward_stable",
    "CML.lu_pivot_solve_backward_stable"
   ],
   "note": "Standard model of rounding: relative error at most u in each operation; no overflow or underflow."
  },
  {
   "property": "C99",
   "status": "proved",
   "theorems": [
    "CML.vexpr_rounding",
    "CML.vexpr_rounding_rejects",
    "CML.mexpr_rounding",
    "CML.mexpr_rounding_rejects",
    "CML.assign_rounding",
    "CML.massign_rounding",
    "CML.VNear.relative"
   ],
   "note": "Standard model of rounding: relative error at most u in each operation; no overflow or underflow."
  }
 ]
}