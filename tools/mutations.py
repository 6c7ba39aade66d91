"""Seeded bugs: edits of model definitions (see mutate.py)."""
M = []
def m(id, file, definition, old, new, edit, claim, props, **kw):
    M.append(dict(id=id, file=file, definition=definition, old=old, new=new, edit=edit, claim=claim, props=props.split(), **kw))

S = "Model/Scalar.lean"
m("S01", S, "clamp", "stdMax (stdMin value max) min", "stdMin (stdMin value max) min", "std::max replaced by std::min", "clamp result lies in [min,max]", "C01")
m("S02", S, "clamp", "stdMax (stdMin value max) min", "stdMax (stdMin value min) max", "bounds swapped", "clamp is the identity on the range", "C01")
m("S03", S, "wrap", "let value := if value < 0 then value + max else value", "let value := if value < 0 then value else value", "negative remainder no longer shifted up", "wrap result lies in [min,max)", "C02")
m("S04", S, "wrap", "let value := fmod (value - min) max", "let value := fmod value max", "offset by min forgotten", "wrap is congruent to value modulo the period", "C02")
m("S05", S, "next", "(i + 1) % N", "i + 1", "modulo dropped", "next stays below N", "C03")
m("S06", S, "prev", "if i ≠ 0 then i - 1 else N - 1", "if i ≠ 0 then i - 1 else N", "wrong wrap-around value", "prev inverts next", "C03")
m("S07", S, "indexOfMax3", "if b < a then (if a < c then 2 else 0) else (if c < b then 1 else 2)", "if b < a then (if b < c then 2 else 0) else (if c < b then 1 else 2)", "compares b with c instead of a with c", "index_of_max(a,b,c) points at a maximum", "C04")
m("S08", S, "indexOfMin4", "if c < d then (if b < c then 1 else 2) else (if b < d then 1 else 3)", "if c < d then (if b < c then 1 else 3) else (if b < d then 1 else 3)", "wrong index in one branch", "index_of_min(a,b,c,d) points at a minimum", "C04")
m("S09", S, "mapRange", "/ (max1 - min1)) * (max2 - min2)", "/ (max2 - min2)) * (max1 - min1)", "ranges swapped", "map_range maps end points to end points", "C05")
m("S10", S, "indexOfMaxAbs2", "indexOfMax2 |a| |b|", "indexOfMax2 a b", "fabs dropped", "index_of_max_abs points at a largest magnitude", "C04")

O = "Model/Orders.lean"
m("O01", O, "unpackEulerOrder", "  let rep := (order &&& 0x01) != 0\n  let odd := (order &&& 0x02) == 0x02", "  let rep := (order &&& 0x01) == 0\n  let odd := (order &&& 0x02) == 0x02", "repetition flag inverted", "unpack_euler_order decodes every order", "C06")
m("O02", O, "packAxisOrder", "(i <<< 2) ||| ((if odd then 1 else 0) <<< 1)", "(i <<< 2) ||| (if odd then 1 else 0)", "parity in the wrong bit", "pack inverts unpack", "C06")
m("O03", O, "swapAxisOrder", "packAxisOrder u.j (!u.odd)", "packAxisOrder u.j u.odd", "parity not flipped", "swap_axis_order exchanges the first two axes", "C06")
m("O04", O, "unpackAxisOrder2D", "  let j := (i + 1 + offset) % 3\n  (i, j, odd)", "  let j := (i + 1) % 3\n  (i, j, odd)", "offset ignored in 2D", "unpack_axis_order2D decodes both orders", "C06")

H = "Model/Hash.lean"
m("H01", H, "hashRotl32", "(x <<< r) ||| (x >>> (32 - r))", "(x <<< r) ||| (x >>> r)", "rotation by a wrong amount", "hash step is a bijection", "C18")
m("H02", H, "hashCombine64", "  let h := h ^^^ k\n", "  let h := h &&& k\n", "xor replaced by and", "hash step is a bijection in the element", "C18")
m("H03", H, "vectorHash", "hs.foldl combine 0", "hs.reverse.foldl combine 0", "elements combined in reverse order", "hash of an extended vector extends the hash", "C18")

P = "Model/Promotion.lean"
m("P01", P, "sizeTagPromote", "let isFixed := t1 == .fixed || t2 == .fixed", "let isFixed := t1 == .fixed && t2 == .fixed", "fixed only if both are", "a fixed operand makes the promoted size fixed", "C73")
m("P02", P, "selectorTable", "(.allocated, .external, .allocated)", "(.allocated, .external, .external)", "external wins over allocated", "owning storage is preferred to a view", "C73", tightened="selectorPromote_spec (added)")
m("P03", P, "basisTagPromote", "  let isRow := isSamePair t1 t2 .row .row || isSamePair t1 t2 .row .any\n  let isCol := isSamePair t1 t2 .col .col || isSamePair t1 t2 .col .any\n  if isRow then .row else if isCol then .col else .any\n\n/-- `layout", "  let isRow := t1 == .row\n  let isCol := isSamePair t1 t2 .col .col || isSamePair t1 t2 .col .any\n  if isRow then .row else if isCol then .col else .any\n\n/-- `layout", "only the left tag decides", "basis promotion is symmetric", "C73")

E = "Model/Expr.lean"
m("E01", E, "VNode.get (cross)", "    let i1 := (i + 2) % 3\n", "    let i1 := (i + 1) % 3\n", "wrong cyclic index", "cross denotes the cross product", "C07")
m("E02", E, "VNode.get (sub)", "if (i : Int) < skip then i else i + 1", "if (i : Int) ≤ skip then i else i + 1", "off by one in subvector", "subvector removes exactly the skipped element", "C14")
m("E03", E, "VExpr.build (bin)", "    let b ← b.build s\n    checkSameSize s a b\n    pure (.bin o a b)", "    let b ← b.build s\n    pure (.bin o a b)", "size check dropped", "operands of different size are rejected", "C07")
m("E04", E, "MNode.get (transpose)", "| .transpose a, i, j => a.get s j i", "| .transpose a, i, j => a.get s i j", "indices not exchanged", "transpose(M)(i,j) = M(j,i)", "C29")
m("E05", E, "innerLoop", "1 (n - 1) (a * b)", "1 n (a * b)", "one iteration too many", "products sum exactly the inner dimension", "C29 C11")
m("E06", E, "matMul", "innerLoop (fun k => a.get s i k) (fun k => b.get s k j)", "innerLoop (fun k => a.get s i k) (fun k => b.get s j k)", "right operand transposed", "operator* is the matrix product", "C29")
m("E07", E, "vecMat", "checkInner f g n db.1", "checkInner f g n db.2", "wrong dimension compared", "v*M is rejected unless sizes fit", "C29")
m("E08", E, "BinOp.apply", "| .minus, a, b => a - b", "| .minus, a, b => b - a", "operands swapped", "a - b is element-wise difference", "C07", tightened="vexpr_refines, mexpr_refines, opAssign_elementwise (the specification now has its own operators BinOp.den, ScalOp.den)")
m("E09", E, "checkSizeC", "Res.require (n == N)", "Res.require (decide (N ≤ n))", "minimum instead of exact size", "cross rejects sizes other than 3", "C07")
m("E10", E, "MNode.dims (outer)", "| .outer a b => do let n ← a.size s; let k ← b.size s; pure (n, k)\nend\n\nmutual\n/-- Whether", "| .outer a b => do let n ← a.size s; let k ← b.size s; pure (k, n)\nend\n\nmutual\n/-- Whether", "rows and columns exchanged", "outer(a,b) has size(a) rows and size(b) columns", "C07")
m("E11", E, "checkSameDims", "Res.require (n == k) (if f && g then .staticAssert else .matIncompatible)\n\n/-- `check_same_inner", "Res.require (n.1 == k.1) (if f && g then .staticAssert else .matIncompatible)\n\n/-- `check_same_inner", "columns not compared", "matrices of different shape are rejected", "C25")
m("E12", E, "VExpr.build (row)", "    Res.require (decide (0 ≤ i)) .invalidArgument\n    pure (.row m i.toNat)", "    pure (.row m i.toNat)", "negative index not rejected", "row(M,i) with i < 0 throws", "C07")

HP = "Model/Heap.lean"
m("M01", HP, "MObj.index", "if m.colMajor then j * m.rows + i else i * m.cols + j", "if m.colMajor then j * m.cols + i else i * m.cols + j", "wrong stride for column-major", "layout index is a bijection", "C24")
m("M02", HP, "MObj.index", "if m.colMajor then j * m.rows + i else i * m.cols + j", "if m.colMajor then i * m.cols + j else j * m.rows + i", "layouts exchanged", "transposed storage; layout as documented", "C28")
m("M03", HP, "VObj.put", "if i < v.size then h.write triv b (v.off + i) e else .ub .oob", "if i ≤ v.size then h.write triv b (v.off + i) e else .ub .oob", "bounds check off by one", "in-range writes only", "C08")
m("M04", HP, "Heap.copyCell", ".ok (h.setBlk dst (some (ld.set o c)))", ".ok h", "copy dropped", "resize keeps the prefix", "C20")

VO = "Model/VecOps.lean"
m("V01", VO, "vResizeWith", "copyOld triv h v.data b (min v.size n.toNat)", "copyOld triv h v.data b (max v.size n.toNat)", "copies too many elements", "resize stays in bounds", "C20")
m("V02", VO, "vResizeWith", ".withVal (h.free v.data v.size) s fun h =>\n            .ok", ".withVal (.ok h) s fun h =>\n            .ok", "old array not released", "no leak", "C19")
m("V03", VO, "vResizeWith", "(some { v with data := some b, size := n.toNat })", "(some { v with data := some b })", "size not updated", "size() = n after resize", "C20")
m("V04", VO, "vMoveAssign", "        (some { w with data := v.data, size := v.size }))\n\n/-- Move constructor, `/repo/cml/vector", "        (some { w with data := none, size := 0 }))\n\n/-- Move constructor, `/repo/cml/vector", "old array of the destination dropped instead of exchanged", "nothing leaks on move assignment", "C22 C19")
m("V05", VO, "vMoveAssign", "(some { v with data := w.data, size := w.size })", "(some { v with data := w.data })", "size not moved", "the size moves with the array", "C22 C19")
m("V06", VO, "vDestroy", ".withVal ((s.heap.destruct triv v.data).free v.data v.size) s fun h =>", ".withVal ((s.heap.destruct triv v.data).free v.data (v.size + 1)) s fun h =>", "released with the wrong size", "destructor never has undefined behaviour", "C19")
m("V07", VO, "vAssign", "  (checkOrResize triv s x e).andThen fun s => storeLoop triv s x fun s i => e.get s i", "  storeLoop triv s x fun s i => e.get s i", "size check / resize dropped", "assignment adapts or checks the size", "C08")
m("V08", VO, "storeLoop", "Out.loop (storeStep triv x f) 0 v.size s", "Out.loop (storeStep triv x f) 0 (v.size - 1) s", "last element not written", "assignment writes every element", "C08")
m("V09", VO, "vScalAssign", "    let b ← c.read s\n    pure (o.apply a b)\n\n/-- `fill", "    let b ← c.read s\n    pure (o.apply b a)\n\n/-- `fill", "operands exchanged", "v /= s divides elements by s", "C16")
m("V10", VO, "vAssignAppend", "vPut triv s x (n.toNat + i) v", "vPut triv s x i v", "appended elements overwrite the front", "assign(other, eN...) appends", "C14")
m("V11", VO, "vExtremize", "(if b < a then b else a) else (if a < b then b else a)", "(if b < a then b else a) else (if a < b then a else b)", "maximize computes the minimum", "maximize is the element-wise maximum", "C15")
m("V12", VO, "vLt", "| none => pure (decide (n < k))", "| none => pure false", "prefix rule dropped", "operator< is a total lexicographic order", "C10")
m("V13", VO, "vEq", "  if n ≠ k then pure false\n  else do\n    let r ← cmpLoop", "  if n ≠ k ∧ False then pure false\n  else do\n    let r ← cmpLoop", "size comparison dropped", "vectors of different size are unequal", "C10")
m("V14", VO, "vDot", "  checkMin g k 1\n  checkSameSize s a b\n", "  checkMin g k 1\n", "size check dropped", "dot rejects different sizes", "C11")
m("V15", VO, "vPerpDot", "pure (a0 * b1 - a1 * b0)", "pure (a0 * b1 + a1 * b0)", "sign error", "perp_dot is antisymmetric", "C12")
m("V16", VO, "vTriple", "vDot s a (.cross b c)", "vDot s a (.cross c b)", "operands exchanged", "triple product is the determinant", "C12")
m("V17", VO, "checkOrResize", "| .allocated => .withVal (e.size s) s fun n => vResize triv s x n\n", "| .allocated => .ok s\n", "dynamic destination not resized", "assignment to a dynamic vector takes the source size", "C08")
m("V18", VO, "vPrint", "1 (n - 1).toNat [some x]", "1 n.toNat [some x]", "loop bound off by one", "printing shows exactly the elements", "C77")
m("V19", VO, "vViewMove", "(some { w with data := none, off := 0, size := if w.fixed then w.size else 0 })", "(some w)", "source view not cleared", "moving a view clears the source", "C23")
m("V20", VO, "vViewCopy", ".ok (s.setVec x (some w))", ".ok (s.setVec x (some { w with off := 0 }))", "copied view loses its offset", "copied view shares all elements", "C23")
m("V21", VO, "ctor", "| .throw e s => .throw e (s.setVec x none)", "| .throw e s => .throw e s", "variable survives a throwing constructor", "a throwing statement has no effect", "C83")

MO = "Model/MatOps.lean"
m("W01", MO, "mResizeWith", ".withVal (h.free m.data (m.rows * m.cols)) s fun h =>\n            .ok", ".withVal (h.free m.data m.rows) s fun h =>\n            .ok", "released with the wrong size", "no undefined behaviour in histories", "C78")
m("W02", MO, "mResizeWith", "    if r < 0 then .throw .invalidArgument s\n", "", "negative row count accepted", "negative dimensions throw", "C28")
m("W03", MO, "mStore", "Out.loop (fun j s => Out.loop (fun i s => mStep triv x f i j s) 0 m.rows s) 0 m.cols s\n    else", "Out.loop (fun j s => Out.loop (fun i s => mStep triv x f i j s) 0 m.cols s) 0 m.rows s\n    else", "loop bounds exchanged for column-major", "assignment is layout independent", "C25")
m("W04", MO, "mIdentity", "if i = j then 1 else 0", "if i = j then 1 else 1", "ones everywhere", "identity()", "C25")
m("W05", MO, "mSetRow", "0 m.cols s\n\n/-- `set_col", "0 m.rows s\n\n/-- `set_col", "wrong loop bound", "set_row writes the whole row", "C31")
m("W06", MO, "mSetBasisElement", "if m.colBasis then mPut triv s x j i e else mPut triv s x i j e", "mPut triv s x i j e", "basis orientation ignored", "set_basis_element respects the orientation", "C31")
m("W07", MO, "mAssignList", "mPut triv s x (k / m.cols) (k % m.cols) v) 0 xs.length s", "mPut triv s x (k % m.rows) (k / m.rows) v) 0 xs.length s", "list read column by column", "lists are in row order for every layout", "C26")
m("W08", MO, "mTransposeFixed", "0 i s) 1 (m.rows - 1) s", "0 m.cols s) 1 (m.rows - 1) s", "swaps both triangles", "in-place transpose", "C27")
m("W09", MO, "mSwap", "(mPut triv s x i j b).andThen fun s => mPut triv s x j i a", "(mPut triv s x i j b).andThen fun s => mPut triv s x j i b", "half of the swap lost", "in-place transpose", "C27")
m("W10", MO, "mEq", "  if n ≠ k then pure false\n  else mEqRows", "  if n.1 ≠ k.1 then pure false\n  else mEqRows", "columns not compared", "matrix equality requires the same shape", "C42")
m("W11", MO, "mTrace", "1 (d.1.toNat - 1) x\n\n/-- `trace_2x2", "1 (d.1.toNat - 2) x\n\n/-- `trace_2x2", "last diagonal element dropped", "trace is the sum of the diagonal", "C32")
m("W12", MO, "mTransposeDyn", "(mAssign triv s x (.transpose (.var t))).andThen fun s => mDestroy triv s t", "(mAssign triv s x (.transpose (.var t)))", "temporary not destroyed", "no temporary is left after transpose()", "C27")
m("W13", MO, "mOpAssign", "    pure (o.apply a b)\n\n/-- A scalar argument passed by const reference to a matrix", "    pure (o.apply b a)\n\n/-- A scalar argument passed by const reference to a matrix", "operands exchanged", "M -= N subtracts N", "C25")
m("W14", MO, "mMoveAssign", "(some { v with data := w.data, rows := w.rows, cols := w.cols })", "(some { v with data := w.data, rows := w.cols, cols := w.rows })", "dimensions exchanged", "move keeps the dimensions", "C22")
m("W15", MO, "mCheckOrResize", "mResize triv s x d.1 d.2", "mResize triv s x d.2 d.1", "rows and columns exchanged", "assignment takes the shape of the source", "C25")
m("W16", MO, "mSetBasisVector", "if transposed then mSetBasisElement triv s x k i.toNat e", "if !transposed then mSetBasisElement triv s x k i.toNat e", "transposed flag inverted", "matrix_set_basis_vector sets basis vector i", "C31")

MT = "Model/Mat.lean"
m("L01", MT, "luSum", "0 k 0\n\n/-- One step of the upper", "0 (k - 1) 0\n\n/-- One step of the upper", "last term dropped", "L*U = M", "C37")
m("L02", MT, "luLowerStep", "let q ← divR (x - sum) d", "let q ← divR (x + sum) d", "sign error", "L*U = M", "C37")
m("L03", MT, "swapOrder", "if i = a then o b else if i = b then o a else o i", "if i = a then o b else o i", "half of the swap lost", "order is a permutation", "C38")
m("L04", MT, "luPivotStep", "sign := -r.sign }", "sign := r.sign }", "sign not flipped", "sign is the permutation sign", "C39")
m("L05", MT, "schurRow", "M.put i j (x - l * u)", "M.put i j (x + l * u)", "sign error", "L*U = P*M", "C38")
m("L06", MT, "det3", "m01 * (m12 * m20 - m10 * m22)", "m01 * (m10 * m22 - m12 * m20)", "cofactor sign", "3x3 determinant", "C33")
m("L07", MT, "det4", "pure (d00 - d01 + d02 - d03)", "pure (d00 - d01 + d02 + d03)", "cofactor sign", "4x4 determinant", "C33")
m("L08", MT, "inverse2", "let a ← divR (-m01) D", "let a ← divR m01 D", "sign dropped", "2x2 inverse", "C35")
m("L09", MT, "inverse3", "  let a ← divR m_10 D\n  let M ← M.put 0 1 a", "  let a ← divR m_01 D\n  let M ← M.put 0 1 a", "adjugate not transposed", "3x3 inverse", "C35")
m("L10", MT, "inverse4", "let a ← divR (-d23) D", "let a ← divR d23 D", "sign dropped", "4x4 inverse", "C35")
m("L11", MT, "forwardSubst", "let v ← b.get (P i)", "let v ← b.get i", "permutation ignored", "pivoted solve satisfies A x = b", "C40")
m("L12", MT, "backwardSubst", "(i + 1) (N - (i + 1)) 0", "(i + 1) (N - (i + 2)) 0", "last term dropped", "A x = b", "C40")
m("L13", MT, "invOtherRow", "let mult := -x", "let mult := x", "sign dropped", "Gauss-Jordan computes the inverse", "C36")
m("L14", MT, "luPivotSolve", "Res.require (decide (lup.sign ≠ 0)) .invalidArgument\n", "Res.require true .invalidArgument\n", "singular check dropped", "singular systems are rejected", "C40")
m("L15", MT, "checkSquare", "decide (M.rows = M.cols)", "decide (M.rows ≤ M.cols)", "wide matrices accepted", "non-square matrices are rejected", "C33 C37")
m("L16", MT, "diagonalProduct", "1 (A.rows - 1) d", "1 (A.rows - 2) d", "last factor dropped", "determinant by LU", "C34")
m("L17", MT, "invPivotRow", "let M ← M.put col col 1\n", "", "pivot not replaced by one", "Gauss-Jordan computes the inverse", "C36")

SS = "Model/StaticSize.lean"
m("T01", SS, "VNode.csize (sub)", "pure (if n - 1 > 0 then n - 1 else -1)", "pure n", "size not reduced", "compile-time size of a subvector", "C80")
m("T02", SS, "VNode.csize (bin)", "| .bin _ a b => do let m ← a.csize s; let n ← b.csize s; pure (if m > n then m else n)", "| .bin _ a b => do let m ← a.csize s; let n ← b.csize s; pure (if m > n then n else m)", "smaller instead of larger constant", "mixed fixed/dynamic expressions keep the compile-time size", "C80")

R = "Model/VecReal.lean"
m("R01", R, "vNormalized", "pure (.scal .div a l)", "pure (.scal .mul a l)", "multiplies by the length", "normalize has unit length", "C13")
m("R02", R, "vCardinal", "(vZero triv s x).andThen fun s => vPut triv s x i 1", "vPut triv s x i 1", "not zeroed first", "cardinal(i) is the i-th unit vector", "C84", tightened="vcardinal_spec (added)")

m("N01", MO, "mCheckOrResize", "| .external =>\n      if m.fixed then .withVal (checkSameDims", "| .external =>\n      if true then .withVal (checkSameDims", "views of run-time dimensions checked instead of reshaped", "assignment to a view of run-time dimensions reshapes it", "C103 C104")
m("N02", MO, "mReshape", "else if m.rows * m.cols = r.toNat * c.toNat then\n      .ok", "else if r.toNat * c.toNat ≤ m.rows * m.cols then\n      .ok", "smaller views accepted", "resize of a view rejects every other number of elements", "C103")
m("N03", MO, "mViewArray", "off, if colMajor then n2 else n1,\n    if colMajor then n1 else n2,", "off, n1, n2,", "array dimensions not exchanged for column-major", "column-major view of E[n1][n2] is the transposed array", "C103")
m("N04", MO, "MObj.nulled", "{ m with data := none, off := 0, rows := if m.fixed", "{ m with off := 0, rows := if m.fixed", "pointer of the source kept", "moving a view clears the source", "C103")
m("N05", MO, "mViewSwap", "(mViewMove s x y).andThen fun s =>\n    (mViewMove s y t)", "(mViewMove s x y).andThen fun s =>\n    (mViewMove s y x)", "second move from the wrong object", "swap exchanges the views", "C103")
m("N06", MO, "mView", "else if c < 0 then .throw .invalidArgument (s.setMat x none)\n  else .ok", "else .ok", "negative number of columns accepted", "negative dimensions are rejected", "C103")
m("N07", "Model/Act.lean", "aScale2D", "  read BMat.checkAffine2D\n  modify BMat.identity\n  aPut 0 0 e0", "  modify BMat.identity\n  read BMat.checkAffine2D\n  aPut 0 0 e0", "identity written before the size check", "matrix_scale_2D leaves the matrix unchanged if it throws", "C106")
m("N08", "Model/Lin.lean", "setTranslation2D", "  m.checkAffine2D\n  let m ← m.bput 2 0 e0\n  m.bput 2 1 e1\n\n/-- `matrix_set_translation_2D(m, v)", "  let m ← m.bput 2 0 e0\n  m.bput 2 1 e1\n\n/-- `matrix_set_translation_2D(m, v)", "size check dropped", "a matrix that is too small is rejected", "C105", tightened="translation2D_throws (added after the automatic mutant survived)")
m("N09", "Model/Lin.lean", "linearTransform", "  (l.mat m).checkLinear3D\n", "", "size check of the source dropped", "a source that is too small is rejected", "C105", tightened="linearTransform_throws (added)")
m("N10", "Model/Lin.lean", "trace2", "def trace2 [Add K] (m : BMat K) : Res K := do\n  m.checkLinear2D", "def trace2 [Add K] (m : BMat K) : Res K := do", "size check dropped", "a matrix that is too small is rejected", "C105", tightened="trace_throws (added)")

I3 = "Model/Int32.lean"; MM = "Model/MatMem.lean"; RO = "Model/Rotation.lean"; EX = "Model/Expr.lean"; QR = "Model/QuatReal.lean"
m("Q01", I3, "mResizeI", "        else if nNew < 0 then .throw .badAlloc s\n", "", "negative product passed to the allocator as zero", "a negative number of elements is a failed allocation", "C108")
m("Q02", I3, "mResizeI", "min nOld.toNat nNew.toNat", "nNew.toNat", "copies as many elements as the new matrix has", "resize copies the common elements", "C107")
m("Q03", I3, "MObj.indexI", "    let p ← A.op (j * m.rows)\n    A.op (p + i)", "    let p ← A.op (j * m.cols)\n    A.op (p + i)", "column-major index with the wrong stride", "index arithmetic equals the unbounded one", "C107")
m("Q04", I3, "mReshapeI", "if old = n then .ok", "if n ≤ old then .ok", "smaller views accepted", "resize of a view rejects every other number of elements", "C107")
m("Q05", MM, "memSwapRows", "    let h ← d.put triv h a j y\n    d.put triv h b j x) 0 d.rows h", "    let h ← d.put triv h a j y\n    d.put triv h b j y) 0 d.rows h", "swap without a temporary", "pivoted LU factors the permuted matrix", "C109 C110")
m("Q06", MM, "memLuLower", "let sum ← memLuSum d h i k k", "let sum ← memLuSum d h k i k", "sum over the wrong row and column", "LU in memory leaves L and U", "C110")
m("Q07", MM, "memInverse", "  memCheckSquare d\n  match d.rows with\n  | 2 => memInverse2", "  match d.rows with\n  | 2 => memInverse2", "square check dropped", "inverse() of a non-square matrix is rejected unchanged", "C109")
m("Q08", MM, "memBackward", "      let z ← x.get h j\n      pure (sum + u * z)) (i + 1)", "      let z ← y.get j\n      pure (sum + u * z)) (i + 1)", "reads y instead of the elements of x already computed", "lu_solve solves the system", "C111")
m("Q09", MM, "mLuSolve", "          let y ← memForward d (fun i => i) vb s.heap", "          let y ← memForward d (fun i => i) vx s.heap", "forward substitution reads x instead of b", "lu_solve solves the system for any overlap of x and b", "C111")
m("Q10", MM, "mDeterminant", "    let s ← (mDestroy triv { s with heap := r.1 } t).res\n    pure (s, r.2)", "    pure ({ s with heap := r.1 }, r.2)", "temporary not destroyed", "determinant leaves no change in memory", "C110")
m("Q11", MM, "mDeterminant", "    let a ← s.mobj t\n    let r ← memDetLu triv eps a s.heap", "    let a ← s.mobj x\n    let r ← memDetLu triv eps a s.heap", "decomposes the argument instead of the copy", "determinant leaves its argument unchanged", "C110")
m("Q12", MM, "mInverseNew", "fun s => mInverse triv s t", "fun s => mInverse triv s x", "inverts the argument instead of the copy", "inverse(M) leaves M unchanged", "C109")
m("Q13", MM, "memDetLu", "pure (r.heap, (r.sign : K) * p)", "pure (r.heap, p)", "sign of the permutation dropped", "determinant by pivoted LU", "C110")
m("Q14", MM, "memCheckSquare", "d.rows = d.cols", "d.rows ≤ d.cols", "wide matrices accepted", "non-square matrices are rejected", "C109")
m("Q15", RO, "toAxisAngle", "  else if tmo > 0 then\n    pure (AVec.mk3 true 0 0 0, 0)", "  else if tmo > -1 then\n    pure (AVec.mk3 true 0 0 0, 0)", "half turns taken for the identity", "extraction is off by a multiple of the tolerance", "C114")
m("Q16", RO, "toAxisAngle", "    let axis ← axis.put k (bik * s)\n", "    let axis ← axis.put k (bij * s)\n", "wrong element in the half-turn branch", "the half-turn axis describes the rotation", "C56 C114")
m("Q17", RO, "toEuler (rep)", "Res.ok (0, a1, sign c1 * atan2 (-bkj) bjj)", "Res.ok (0, a1, atan2 (-bkj) bjj)", "sign dropped in the singular branch", "Euler angles describe the rotation", "C57 C114")
m("Q18", RO, "toEuler (nonrep)", "Res.ok (0, a1, -(sign s1 * atan2 (-bkj) bjj))", "Res.ok (0, a1, sign s1 * atan2 (-bkj) bjj)", "wrong sign in the gimbal branch", "Euler angles describe the rotation", "C57 C114")
m("Q19", RO, "toEuler (nonrep)", "      if c1 > tolerance then do\n        let bjk", "      if c1 > tolerance * tolerance then do\n        let bjk", "tolerance squared", "the general formula is used outside of the band only", "C57 C114")
m("Q20", EX, "VExpr.build (mulMV)", "    let t ← matVec s m v\n    pure (.temp t.1 t.2)\n  | .mulVM", "    let t ← matVec s m v\n    pure (.temp t.1 t.2.reverse)\n  | .mulVM", "product stored in reverse order", "a stored product keeps the value it had", "C113")
m("Q21", QR, "qLength", "pure (Sqrt.sqrt (← qLengthSquared s a))", "qLengthSquared s a", "length not the square root", "normalize gives length one", "C48 C115")
m("Q22", R, "vLength", "  pure (Sqrt.sqrt q)", "  pure q", "length not the square root", "normalize gives length one", "C11 C13")
m("Q23", R, "vNormalize", "vScalAssign triv .div s x (.val l)", "vScalAssign triv .div s x (.elem x 0)", "divides by its own first element", "normalize in place gives length one", "C13")
m("Q24", MO, "mMoveAssign", "(some { w with data := v.data, rows := v.rows, cols := v.cols })", "(some { w with data := v.data })", "dimensions of the source not exchanged", "programs compute what the mathematics says", "C112")
m("Q25", "Model/VecOps.lean", "vResizeWith", ".withVal (h.free v.data v.size) s fun h =>", ".withVal (h.free v.data n.toNat) s fun h =>", "old array released with the new size", "resize releases the old array correctly; programs compute what the mathematics says", "C22 C112")
MV = "Model/MatMove.lean"; RW = "Model/Raw.lean"
m("Q26", MV, "Subscript.at", "| .strict => if i < n1 ∧ j < n2 then", "| .strict => if i < n1 then", "second subscript not checked", "by the rules of the language moves of column-major matrices that are not square are undefined", "C116")
m("Q27", MV, "MObj.rawAt", "m.at (if d.colMajor then d.cols else d.rows) (if d.colMajor then d.rows else d.cols) i j", "m.at d.rows d.cols i j", "array type of the row-major layout for both layouts", "column-major matrices that are not square lose elements", "C116")
m("Q28", MV, "MTemp.rawGet", "if d.colMajor then t.get (k % t.rows) (k / t.rows) else", "if d.colMajor then t.get (k / t.rows) (k % t.rows) else", "temporary read transposed", "a product assigned by move arrives", "C116")
m("Q29", MV, "mMoveFixed", "fun w => mMoveFrom m triv s x fun s k => w.rawGet", "fun w => mMoveFrom m triv s y fun s k => w.rawGet", "moves into the source", "move assignment gives x the elements of y", "C116")
m("Q30", MV, "vMoveFixed", "vPut triv s x i e) 0 d.size s", "vPut triv s x i e) 0 (d.size - 1) s", "last element not moved", "fixed vectors are moved completely", "C116")
m("Q31", RW, "VObj.end", "v.begin.add v.size", "v.begin.add (v.size - 1)", "end() one element early", "iteration visits all elements", "C117")
m("Q32", RW, "Ptr.iterate", "let es ← Ptr.iterate h fuel (p.add 1) q\n      pure (e :: es)", "let es ← Ptr.iterate h fuel (p.add 1) q\n      pure (es ++ [e])", "reverse order", "iteration visits the elements in order", "C117")
m("Q33", RW, "MObj.end", "m.begin.add (m.rows * m.cols)", "m.begin.add (m.rows * m.rows)", "end() for square matrices only", "iteration visits all elements", "C117")
m("Q34", RW, "vNewPtr", "vResizeFast triv (vDefault s x) x n", "vResizeFast triv s x n", "member initialisation dropped", "a new vector is built from the pointer", "C117")
m("Q35", RW, "mAssignRaw", "mPut triv s x (k / m.cols) (k % m.cols) e", "mPut triv s x (k % m.rows) (k / m.rows) e", "column-major reading order", "element (k / cols, k % cols) is the k-th value", "C117")
m("Q36", RW, "mNewPtr", "(mDefault colMajor colBasis s x) x r c", "(mDefault colMajor colBasis s x) x c r", "dimensions exchanged", "the new matrix has the given dimensions", "C117")
m("Q37", RW, "vViewMoveNew", "(some { w with data := none, off := 0, size := if w.fixed", "(some { w with off := 0, size := if w.fixed", "source keeps its pointer", "the moved-from view is null", "C117")
m("Q38", RW, "vViewReset", "{ v with data := none, off := 0, size := 0 }", "{ v with data := none, off := 0 }", "size kept", "a reset view is empty", "C117")
m("Q39", RW, "mRandom", "    (if m.colMajor then\n", "    (if !m.colMajor then\n", "order of the other layout", "the draws go to the elements in storage order", "C117")
m("Q40", RW, "Out.counted", "| .ok s => .ok (c.1 + 1, s)", "| .ok s => .ok (c.1, s)", "every element gets the same draw", "every element gets a draw of its own", "C117")
LS = "Model/LinStmt.lean"
m("X01", LS, "Out.scoped", "| .throw e s => (mDestroy triv s t).andThen fun s => .throw e s", "| .throw e s => .throw e s", "temporary leaked when its scope is left by an exception", "a rejected statement changes nothing; no memory is left", "C118")
m("X02", LS, "Out.scoped", "| .ok s => mDestroy triv s t", "| .ok s => .ok s", "temporary never destroyed", "temporaries are gone and their memory is released", "C118")
m("X03", LS, "mLuNew", "fun s => mLuInplace triv s t", "fun s => mLuInplace triv s x", "decomposes the argument instead of the copy", "lu(x) leaves x unchanged", "C118")
m("X04", LS, "mLuPivotSolve", "Res.require (decide (sign ≠ 0)) .invalidArgument", "Res.require (decide (sign ≠ 1)) .invalidArgument", "wrong sign rejected", "lu_solve with a decomposition solves the system", "C111")
m("X05", LS, "mLuPivotSolve", "memForward d order vb s.heap", "memForward d (fun i => i) vb s.heap", "row order ignored", "lu_solve with a pivoted decomposition solves the system", "C111")
m("X06", LS, "mLuPivotSolve", "memBackward triv d vx y vb.size s.heap) s fun h", "memBackward triv d vx y (vb.size - 1) s.heap) s fun h", "first unknown not computed", "lu_solve with a pivoted decomposition solves the system", "C111")
m("X07", LS, "mPivotResult", "Out.scoped triv u (mCopyNew triv d.colMajor d.colBasis s t (.var u))", "Out.scoped triv u (mCopyNew triv (!d.colMajor) d.colBasis s t (.var u))", "member of the other layout", "(equivalent for the claim: layout of a temporary)", "C118")
m("X08", LS, "mPivotSolve", "    .withVal (memCheckSquare d) s fun _ =>\n      (mPivotResult triv s d m t u)", "    .withVal (Res.ok ()) s fun _ =>\n      (mPivotResult triv s d m t u)", "square check dropped", "non-square matrices are rejected", "C118")
m("X09", LS, "vPutDet", "fun r => vPut triv r.1 x i r.2", "fun r => vPut triv s x i r.2", "memory of the temporary resurrected (state before the determinant)", "nothing but the element changes", "C118")
m("X10", LS, "vPutDet", "mDeterminant triv eps s m t", "mDeterminant triv eps s m m", "temporary with the name of the matrix", "the determinant is computed on a copy", "C118")
m("X11", RO, "rotationQuaternion", "(1 - yy2 - zz2) (xy2 + zw2)", "(w * w + x * x - y * y - z * z) (xy2 + zw2)", "other formula, exact for unit quaternions", "elements of the matrix of a quaternion", "C57")
m("X12", RO, "rotationQuaternion", "  let x2 := x + x\n  let y2 := y + y\n  let z2 := z + z\n  let xx2 := x * x2\n  let yy2 := y * y2\n  let zz2 := z * z2\n  let xy2 := x * y2\n  let yz2 := y * z2\n  let zx2 := z * x2\n  let xw2 := w * x2", "  let x2 := x + x + x - x\n  let y2 := y + y\n  let z2 := z + z\n  let xx2 := x * x2\n  let yy2 := y * y2\n  let zz2 := z * z2\n  let xy2 := x * y2\n  let yz2 := y * z2\n  let zx2 := z * x2\n  let xw2 := w * x2", "additional roundings", "distance at most gamma_4", "C119")
NA = "Model/Nan.lean"
m("X13", NA, "qEqB", "pure (x == y)", "pure (x == y || decide (x = y))", "a NaN equals a NaN", "a quaternion with NaN is not equal to itself", "C120")
m("X14", "Model/VecOps.lean", "vEq", "    | some _ => pure false\n    | none => pure true", "    | some b => pure b\n    | none => pure true", "smaller counts as equal", "equality of vectors", "C120 C10")
m("X15", "Model/MatOps.lean", "mEqRow", "if x < y then pure false else if y < x then pure false else mEqRow", "if y < x then pure false else mEqRow", "smaller elements not noticed", "equality of matrices", "C120 C42")
m("X16", NA, "qLtB", "if x < y then pure (some true) else if x > y then pure (some false) else pure none)", "if x < y then pure (some true) else pure (some false))", "only the first element is compared", "the order of quaternions", "C120")
m("X17", NA, "qLeB", "pure (!(← qGtB s a b))", "pure (← qLtB s a b)", "<= without equality", "a quaternion with NaN is <= itself", "C120")
m("X18", "Model/VecOps.lean", "vExtremize", "(if b < a then b else a) else (if a < b then b else a)", "(if a < b then a else b) else (if b < a then a else b)", "operands of std::min exchanged", "which operand minimize and maximize keep (matters for NaN, C120; only the theorems of C15, which fail first, were reached)", "C15")
m("X19", "Model/IntAngle.lean", "intAngle", "half n := n.tdiv 2", "half n := n / 2", "halving rounds down instead of towards zero", "the angle -1 gives the identity quaternion", "C121")
m("X20", "Model/IntAngle.lean", "truncR", "if 0 ≤ x then ⌊x⌋ else ⌈x⌉", "⌊x⌋", "conversion to integer rounds down", "negative cosines truncate to zero", "C121")
m("X21", "Model/IntAngle.lean", "intAngle", "coLat n := 1 - n", "coLat n := 2 - n", "pi_over_2 of an integral type rounded up", "latitude one is the pole", "C121")
m("X22", "Model/IntAngle.lean", "polarToCartesianT", "let v ← v.put 0 (T.cos theta * radius)\n  v.put 1 (T.sin theta * radius)", "let v ← v.put 0 (T.sin theta * radius)\n  v.put 1 (T.cos theta * radius)", "cosine and sine exchanged", "same function for real angles", "C121")
m("X23", "Model/IntElem.lean", "Div CInt", "Int.tdiv a b", "Int.fdiv a b", "division rounds down", "quotients are not larger than the exact ones in absolute value", "C122")
m("X24", "Model/IntElem.lean", "Sqrt CInt", "Nat.sqrt (Int.toNat x)", "Nat.sqrt (Int.toNat x) + 1", "square root rounded up", "length is rounded down", "C122")
m("X25", "Model/IntAngle.lean", "degZ", "x * truncR Consts.degPerRad", "x * truncR Consts.radPerDeg", "wrong constant", "deg multiplies by 57", "C121")
m("X26", "Model/SelfArg.lean", "vSetRefs", "ERef.nth s.heap es i) 0 es.length s", "ERef.nth s.heap es (es.length - 1 - i)) 0 es.length s", "arguments stored in reverse", "element i becomes argument i", "C123")
m("X27", "Model/SelfArg.lean", "mSetRefs", "mPut triv s x (k / m.cols) (k % m.cols) v", "mPut triv s x (k % m.rows) (k / m.rows) v", "arguments in column-major order", "argument k goes to row k / cols", "C123")
m("X28", "Model/SelfArg.lean", "vSetRefs", "(checkOrResizeN triv true s x es.length)", "(checkOrResizeN triv false s x es.length)", "no resize", "set resizes dynamic vectors", "C123")
m("X29", "Model/SelfBuild.lean", "SelfBuild.setBasisVector", "let m ← m.bput i.toNat 1 a\n  let a ← v.get m 2\n  m.bput i.toNat 2 a", "let m ← m.bput i.toNat 2 a\n  let a ← v.get m 2\n  m.bput i.toNat 1 a", "two elements exchanged", "basis vector i becomes v", "C123")
m("X30", "Model/SelfBuild.lean", "SelfBuild.setBasisVectors", "let m ← setBasisVector m 1 y\n  setBasisVector m 2 z", "let m ← setBasisVector m 2 z\n  setBasisVector m 1 y", "stored in another order", "basis vectors are stored in turn", "C123")
m("X31", "Model/SelfBuild.lean", "SelfBuild.setTranslation", "let x ← e1.read m\n  let m ← m.bput 3 1 x\n  let x ← e2.read m\n  m.bput 3 2 x", "let x ← e1.read m\n  let y ← e2.read m\n  let m ← m.bput 3 1 x\n  m.bput 3 2 y", "the last argument read too early", "arguments are read in turn", "C123")
m("X32", "Model/SelfBuild.lean", "SelfBuild.scale3D", "let m := m.identity\n  let x ← e0.read m\n  let m ← m.bput 0 0 x\n  let x ← e1.read m\n  let m ← m.bput 1 1 x\n  let x ← e2.read m", "let x ← e0.read m\n  let m := m.identity\n  let m ← m.bput 0 0 x\n  let x ← e1.read m\n  let m ← m.bput 1 1 x\n  let x ← e2.read m", "first factor read before the identity", "the factors have the values of the identity matrix", "C123")
m("X33", "Model/SelfBuild.lean", "SelfBuild.rotationAxisAngle", "let m := m.identity\n  let t ← angle.read m", "let t ← angle.read m\n  let m := m.identity", "angle read before the identity", "the angle has the value of the identity matrix", "C123")
m("X34", "Model/SelfBuild.lean", "SelfBuild.inverseScale3D", "let x ← e2.read m\n  let c ← divR 1 x", "let x ← e2.read m.identity\n  let c ← divR 1 x", "third factor read from the identity", "the factors are temporaries", "C123")
m("X36", "Model/SelfBuild.lean", "SelfBuild.setTranslationV", "let m ← m.bput 3 1 x\n  m.bput 3 2 e2", "let m ← m.bput 3 1 x\n  m.bput 3 2 0", "third component dropped", "the translation becomes v", "C123")
m("X37", "Model/SelfBuild.lean", "SelfBuild.skewSymmetric", "m.bput 1 0 (-a)", "m.bput 1 0 a", "sign dropped", "skew symmetry", "C123")
m("X38", "Model/SelfBuild.lean", "SelfBuild.rotationAlign", "let a ← align.view m\n  let r ← reference.view m", "let r ← align.view m\n  let a ← reference.view m", "vectors exchanged", "the first vector is aligned", "C123")
m("X39", "Model/SelfBuild.lean", "SelfBuild.affineAxisAngle", "setTranslationV m translation", "translationV m translation", "rotation overwritten", "the linear part is the rotation", "C123")
m("X40", "Model/OutArg.lean", "polarInto", "let σ := σ.wr radius l\n  let t ← if σ radius < tolerance then .ok 0 else do\n    let y ← (v.load σ).get 1\n    let x ← (v.load σ).get 0\n    .ok (atan2 y x)\n  .ok (σ.wr theta t)", "let t ← if l < tolerance then .ok 0 else do\n    let y ← (v.load σ).get 1\n    let x ← (v.load σ).get 0\n    .ok (atan2 y x)\n  let σ := σ.wr radius l\n  .ok (σ.wr theta t)", "angle computed before the radius is stored", "in place the angle is wrong", "C124")
m("X41", "Model/OutArg.lean", "cylindricalInto", "let σ := σ.wr height z\n  let x ← (v.load σ).get p.2.1\n  let y ← (v.load σ).get p.2.2\n  let σ := σ.wr radius (len2 x y)", "let x ← (v.load σ).get p.2.1\n  let y ← (v.load σ).get p.2.2\n  let σ := σ.wr radius (len2 x y)\n  let σ := σ.wr height z", "height stored after the radius", "height and radius are stored in this order", "C124")
m("X42", "Model/OutArg.lean", "sphericalInto", "let σ := σ.wr theta t\n  let z ← (v.load σ).get p.1\n", "let z ← (v.load σ).get p.1\n  let σ := σ.wr theta t\n", "element along the axis read before theta is stored", "theta in that element spoils the radius", "C124")
m("X43", "Model/OutArg.lean", "sphericalInto", "let z ← (v.load σ).get p.1\n    let σ := σ.wr phi (atan2 len z)", "let σ := σ.wr phi (atan2 len z)", "element along the axis not read again", "radius in that element spoils phi", "C124")
m("X44", "Model/OutArg.lean", "eulerInto", "let bij ← (m.load σ).bget i j\n        let bii ← (m.load σ).bget i i\n        Res.ok (σ.wr a2 (atan2 bij bii))", "Res.ok (σ.wr a2 (atan2 bij bii))", "last angle from elements read before", "in place the last angle is wrong", "C124")
m("X45", "Model/OutArg.lean", "eulerInto", "let σ := σ.wr a0 (-σ a0)\n    let σ := σ.wr a1 (-σ a1)\n", "let σ := σ.wr a1 (-σ a1)\n", "first angle not negated", "odd orders negate all angles", "C124")
m("X46", "Model/OutArg.lean", "axisAngleInto", "let tmo := (← trace3 (m.load σ)) - 1\n  if", "let tmo := (b12 + b21) - 1\n  if", "trace from other elements", "the angle has the cosine of the trace", "C124")
m("X47", "Model/OutArg.lean", "axisAngleInto", "let σ := σ.wr (axis.addr j) (bij * s)\n    let bik ← (m.load σ).bget i k", "let bik ← (m.load σ).bget i k\n    let σ := σ.wr (axis.addr j) (bij * s)", "last element read early", "elements are read in turn", "C124")
m("X48", "Model/OutArg.lean", "qAxisAngleInto", "let y ← qImag (q.load σ) q.node 1\n  let σ := σ.wr (axis.addr 1) y\n  let z ← qImag (q.load σ) q.node 2\n", "let y ← qImag (q.load σ) q.node 1\n  let z ← qImag (q.load σ) q.node 2\n  let σ := σ.wr (axis.addr 1) y\n", "last element read early", "the imaginary part is read lazily", "C124")
m("X49", "Model/OutArg.lean", "qAxisAngleInto", "let σ ← σ.div3 axis l\n    let r ← qReal (q.load σ) q.node", "let r ← qReal (q.load σ) q.node\n    let σ ← σ.div3 axis l", "real part read before the division", "the real part is read after the axis is normalised", "C124")
m("X50", "Model/OutArg.lean", "translationInto", "let σ := σ.wr e1 y\n  let z ← (m.load σ).bget 3 2\n", "let z ← (m.load σ).bget 3 2\n  let σ := σ.wr e1 y\n", "last component read early", "the components are read in turn", "C124")
m("X51", "Model/OutArg.lean", "basisVectorsInto", "let σ ← σ.assign3 x a\n  let b ← getBasisVector (m.load σ) 1\n  let σ ← σ.assign3 y b", "let σ ← σ.assign3 y a\n  let b ← getBasisVector (m.load σ) 1\n  let σ ← σ.assign3 x b", "outputs exchanged", "x becomes the first basis vector", "C124")
m("X52", "Model/OutArg.lean", "transposedBasisVectorsInto", "let σ ← σ.assign3 y b\n  let c ← getTransposedBasisVector (m.load σ) 2", "let c ← getTransposedBasisVector (m.load σ) 2\n  let σ ← σ.assign3 y b", "third vector extracted early", "the vectors are extracted in turn", "C124", tightened="transposedBasisInPlace_iff (added)")
m("X53", "Model/OutArg.lean", "orthonormalInto", "let σ ← σ.assign3 y b.2.1\n  σ.assign3 z b.2.2", "let σ ← σ.assign3 y b.2.2\n  σ.assign3 z b.2.1", "axes exchanged", "y becomes the second axis", "C124")
m("X54", "Model/OutArg.lean", "Cells.div3", "let y ← divR (σ (axis.addr 1)) l\n  let σ := σ.wr (axis.addr 1) y\n", "", "second element not divided", "the axis is a unit vector", "C124")
m("X55", "Model/SelfLook.lean", "lookAt", "let m := m.identity\n  let s : ℝ := h.s\n  let d ← lookD position target m", "let s : ℝ := h.s\n  let d ← lookD position target m\n  let m := m.identity", "direction read before the identity is stored", "the arguments are read after the matrix became the identity", "C123")
m("X56", "Model/SelfLook.lean", "lookZ", ".ok (n.smul s)", ".ok n", "handedness dropped", "z is the direction times the sign of the handedness", "C123")
m("X57", "Model/SelfLook.lean", "lookC", "u.cross z", "z.cross u", "operands of the first cross product exchanged", "x is up x z", "C123")
m("X58", "Model/SelfLook.lean", "lookY", "z.cross x", "x.cross z", "operands of the second cross product exchanged", "y is z x x", "C123")
m("X59", "Model/SelfLook.lean", "setTransposedLazy", "let w ← v m\n  let a ← w.get 1", "let a ← w.get 1", "axis not evaluated again for the second element", "the node is evaluated anew for every element", "C123")
m("X60", "Model/SelfLook.lean", "lookAt", "let m ← setTransposedLazy m 0 x\n  let m ← setTransposedLazy m 1 y", "let m ← setTransposedLazy m 1 y\n  let m ← setTransposedLazy m 0 x", "axes stored in another order", "the axes are stored in turn", "C123")
m("X61", "Model/SelfLook.lean", "lookAt", "let dy ← p.dot w\n  let w ← z m", "let dy ← p.dot w\n  let w ← x m", "last component of the translation from x", "the translation is minus the components of the position", "C123")
m("X62", "Model/Mixed.lean", "ETy.common", "if a = b then a else arith a b", "arith a b", "common type of equal narrow types is int", "common_type of equal types is this type", "C125 C126")
m("X63", "Model/Mixed.lean", "ETy.arith", "else if p.signed then q else p", "else if p.signed then p else q", "signed type preferred for equal widths", "int and unsigned combine as unsigned", "C127")
m("X64", "Model/Mixed.lean", "ETy.arith", "else if p.bits < q.bits then q\n", "else if p.bits < q.bits then p\n", "narrower type chosen", "the wider type is the type of the operation", "C125")
m("X65", "Model/Mixed.lean", "ETy.promote", "| i8 | u8 | i16 | u16 => i32", "| i8 | u8 | i16 => i32", "unsigned short not promoted", "unsigned short is multiplied as int", "C126")
m("X66", "Model/Mixed.lean", "ETy.wrap", "if t.signed then z.bmod (2 ^ t.bits) else", "if t.signed then z % 2 ^ t.bits else", "signed conversion yields a nonnegative number", "the result is a value of the type", "C125")
m("X67", "Model/Mixed.lean", "truncZ", "if 0 ≤ x then ⌊x⌋ else ⌈x⌉", "⌊x⌋", "conversion rounds down", "conversion rounds towards zero", "C125")
m("X68", "Model/Mixed.lean", "ETy.result", "if t.lo ≤ z ∧ z ≤ t.hi then .ok (.int z) else .ub .overflow", "if t.lo ≤ z ∧ z ≤ t.hi then .ok (.int z) else .ok (.int (t.wrap z))", "signed overflow wraps", "signed overflow is undefined", "C126")
m("X69", "Model/Mixed.lean", "ETy.result", "else .ok (.int (t.wrap z))", "else if t.lo ≤ z ∧ z ≤ t.hi then .ok (.int z) else .ub .overflow", "unsigned overflow undefined", "unsigned arithmetic is modular", "C126")
m("X70", "Model/Mixed.lean", "AOp.apply", "let r ← o.builtin s t a b\n  r.conv (s.common t)", "o.builtin s t a b", "result not converted", "elements are values of the declared element type", "C125")
m("X71", "Model/Mixed.lean", "negApply", "| .int z => t.promote.result (-z)", "| .int z => .ok (.int (t.wrap (-z)))", "negation in the unpromoted type", "-v has the promoted type", "C125")
m("X72", "Model/Mixed.lean", "TVec.get", "let a ← l.get i\n    o.apply l.ty t a c", "let a ← l.get i\n    o.apply t l.ty c a", "operands of the scalar node exchanged", "v / s divides by s", "C125")
m("X73", "Model/Mixed.lean", "assignT", "let v ← e.get i\n    v.conv d", "e.get i", "stored without conversion", "the destination holds values of its type", "C125")
m("X74", "Model/Mixed.lean", "scalAssignT", "let v ← o.apply d t (y ⟨i, h⟩) c\n      let v ← v.conv d", "let c ← c.conv d\n      let v ← o.apply d d (y ⟨i, h⟩) c", "scalar converted first", "v *= 0.5 multiplies by 0.5", "C125")
m("X75", "Model/Mixed.lean", "dotT", "AOp.add.apply (s.common t) (s.common t) acc p", "AOp.add.builtin (s.common t) (s.common t) acc p", "accumulator not converted back", "the accumulator has the common type", "C126")
m("X76", "Model/Mixed.lean", "innerT", "let p ← AOp.mul.builtin s t (x ⟨i, h⟩) (y ⟨i, h⟩)", "let p ← AOp.mul.apply s t (x ⟨i, h⟩) (y ⟨i, h⟩)", "each product converted to the common type", "products are summed up in their own type", "C126")
m("X77", "Model/Mixed.lean", "innerT", "m.conv (s.common t)", ".ok m", "element not converted", "the element has the common type", "C126")
m("X78", "Model/Mixed.lean", "ltT", "match ← a.conv (s.arith t), ← b.conv (s.arith t) with", "match ← a.conv s, ← b.conv s with", "compared in the type of the left operand", "compared in the common arithmetic type", "C127")
m("X79", "Model/Mixed.lean", "eqT", "if ← ltT t s (y ⟨i, h⟩) (x ⟨i, h⟩) then .ok false else .ok true", ".ok true", "greater elements accepted", "== rejects elements that differ", "C127")
m("X80", "Model/Mixed.lean", "ltStepT", "then .ok (some true)\n      else do\n        if ← ltT t s (y ⟨i, h⟩) (x ⟨i, h⟩) then .ok (some false) else .ok none", "then .ok (some true)\n      else .ok none", "greater element does not decide", "the first difference decides", "C127")
m("X81", "Model/Mixed.lean", "AOp.raw", "t.result (x.tdiv y)", "t.result (x / y)", "quotient rounded down", "quotients are rounded towards zero", "C125")
m("X82", "Model/Mixed.lean", "AOp.raw", "| .div => if y = 0 then .ub .divZero else t.result", "| .div => if y = 0 then t.result 0 else t.result", "division by zero gives zero", "division by zero is undefined", "C125")
m("X83", "Model/Mixed.lean", "Num.conv", "if t.lo ≤ truncZ x ∧ truncZ x ≤ t.hi then .ok (.int (truncZ x)) else .ub .overflow", ".ok (.int (t.wrap (truncZ x)))", "value out of range reduced", "a value that does not fit is undefined", "C125")
m("X84", "Model/Mixed.lean", "binAssignT", "let v ← o.apply d e.ty (y ⟨i, h⟩) b\n      let v ← v.conv d", "let b ← b.conv d\n      let v ← o.apply d d (y ⟨i, h⟩) b", "operand rounded before the sum", "v += e rounds the sum", "C125")
m("X85", "Model/Mixed.lean", "fillT", "      .ok (Function.update y ⟨i, h⟩ v)\n    else .ub .oob) 0 n x\n\n/-- `v = e`", "      .ok (Function.update y ⟨i, h⟩ v)\n    else .ub .oob) 0 (n - 1) x\n\n/-- `v = e`", "last element not assigned", "all elements are stored", "C125")
m("X86", "Model/Mixed.lean", "ETy.hi", "2 ^ t.bits - 1", "2 ^ t.bits", "largest value off by one", "range of the unsigned types", "C125")
m("X87", "Model/Mixed.lean", "ETy.lo", "-2 ^ (t.bits - 1)", "-2 ^ (t.bits - 1) + 1", "smallest value excluded", "range of the signed types", "C125")
m("X88", "Model/IntScalar.lean", "wrapI", "  intOp .add t min value", "  intOp .add t max value", "max added at the end", "the result lies in the range", "C128")
m("X89", "Model/IntScalar.lean", "wrapI", "  let d ← intOp .sub t value min\n", "  let d ← intOp .sub t value max\n", "distance from max instead of min", "the result is congruent to the value", "C128")
m("X90", "Model/IntScalar.lean", "wrapI", "if value < 0 then intOp .add t value max else .ok value", "if value < 0 then intOp .sub t max value else .ok value", "negative remainder subtracted from the width", "the result lies in the range", "C128")
m("X91", "Model/IntScalar.lean", "wrapI", "if value < 0 then intOp .add t value max else .ok value", ".ok value", "negative remainders kept", "the result lies in the range", "C128")
m("X92", "Model/IntScalar.lean", "fmodI", "(toDouble v).tmod (toDouble w)", "v.tmod w", "remainder of integers, no double", "64-bit values are rounded", "C128")
m("X93", "Model/IntScalar.lean", "round53", "n.log2 + 1 - 53", "n.log2 - 53", "54 bits kept", "53 bits are significant", "C128")
m("X94", "Model/IntScalar.lean", "round53", "n.log2 + 1 - 53", "n.log2 + 1 - 24", "single precision", "values of at most 53 bits are exact", "C128")
m("X96", "Model/IntScalar.lean", "mapRangeI", "(.int min2) m", "(.int min1) m", "source minimum added", "the ends go to the ends", "C128")
m("X97", "Model/IntScalar.lean", "mapRangeI", "AOp.div.builtin p p a b", "AOp.div.builtin p p b a", "quotient inverted", "the ends go to the ends", "C128")
m("X98", "Model/IntScalar.lean", "intOp", "o.apply t t (.int a) (.int b)", "o.apply .i64 .i64 (.int a) (.int b)", "computed in 64 bits", "overflow of int", "C128")
m("X99", "Model/IntProj.lean", "orthographicI", "let invDepth ← divZ 1 (f - n)\n  let s : ℤ := h.s\n  let m ← (match zc with\n    | .negOne => do\n      let m ← m.bput 2 2 ((s * 2", "let invDepth ← divZ 1 (n - f)\n  let s : ℤ := h.s\n  let m ← (match zc with\n    | .negOne => do\n      let m ← m.bput 2 2 ((s * 2", "depth negated", "unit boxes are projected correctly", "C129")
m("X100", "Model/IntProj.lean", "orthographicI", "((-(right + left) * invWidth : ℤ) : K)\n  m.bput 3 1 ((-(top", "((-(right - left) * invWidth : ℤ) : K)\n  m.bput 3 1 ((-(top", "centre from the difference", "unit boxes are projected correctly", "C129")
m("X101", "Model/IntProj.lean", "orthographicWHI", "  orthographicI m (-hw) hw (-hh) hh n f h zc", "  orthographicI m 0 hw 0 hh n f h zc", "box not centred", "never a projection by width and height", "C129")
m("X103", "Model/IntProj.lean", "perspectiveI", "let m ← m.bput 2 3 ((s : ℤ) : K)", "let m ← m.bput 2 3 ((-s : ℤ) : K)", "sign of the homogeneous coordinate", "unit frusta are projected correctly", "C129")
m("X104", "Model/IntProj.lean", "divZ", ".ok (a.tdiv b)", ".ok (a / b)", "floor division", "1 / -2 is zero", "C129")
m("X105", "Model/IntProj.lean", "orthographicLH", "orthographic m left right bottom top n f .left zc", "orthographic m left right bottom top n f .right zc", "wrong orientation", "mirror images", "C130")
m("X106", "Model/IntProj.lean", "perspectiveWHRH", "perspectiveWH m width height n f .right zc", "perspectiveWH m height width n f .right zc", "width and height exchanged", "the version with width and height is the centred box", "C130")
m("X107", "Model/IntProj.lean", "perspectiveYfovRH", "perspectiveYfov m yfov aspect n f .right zc", "perspectiveXfov m yfov aspect n f .right zc", "field of view in the wrong direction", "mirror images", "C130")
m("X108", "Model/Rotation.lean", "perspectiveXfov", "let height ← divR width aspect", "let height := width * aspect", "aspect ratio inverted", "xfov and yfov agree", "C65")
m("X109", "Model/IntProj.lean", "perspectiveXfovI", "  let half ← divZ xfov 2\n  let width := 2 * n * tan half\n  let height ← divZ width aspect\n  perspectiveWHI m width height n f h zc", "  let half ← divZ xfov 2\n  let width := 2 * n * tan half\n  let height ← divZ width aspect\n  perspectiveI m 0 width 0 height n f h zc", "frustum not centred", "never a projection by field of view", "C129")
m("X110", "Model/FovZoom.lean", "xfovToYfov", "let q ← divR t aspect", "let q := t * aspect", "aspect ratio inverted", "xfov_to_yfov and yfov_to_xfov are inverse", "C132")
m("X111", "Model/FovZoom.lean", "xfovToYfov", "let t ← tanR (xfov / 2)", "let t ← tanR xfov", "half angle forgotten", "the range of the round trip", "C132")
m("X112", "Model/FovZoom.lean", "yfovToXfov", "pure (2 * Real.arctan (t * aspect))", "pure (Real.arctan (t * aspect))", "factor two forgotten", "xfov_to_yfov and yfov_to_xfov are inverse", "C132")
m("X113", "Model/FovZoom.lean", "xzoomToYzoom", "pure (xzoom * aspect)", "divR xzoom aspect", "zoom converted like the field of view", "zoom factors of converted fields of view", "C132")
m("X114", "Model/FovZoom.lean", "yzoomToXzoom", "divR yzoom aspect", "pure (yzoom * aspect)", "zoom converted the wrong way", "yzoom_to_xzoom undoes xzoom_to_yzoom", "C132")
m("X115", "Model/FovZoom.lean", "zoomToFov", "let q ← divR 1 zoom\n  pure (2 * Real.arctan q)", "pure (2 * Real.arctan zoom)", "reciprocal forgotten", "zooming in narrows the view", "C132")
m("X116", "Model/FovZoom.lean", "fovToZoom", "divR 1 t", "pure t", "reciprocal forgotten", "zoom factors scale the projection", "C132")
m("X117", "Model/FovZoom.lean", "fovToZoom", "tanR (fov / 2)", "tanR fov", "half angle forgotten", "zoom_to_fov and fov_to_zoom are inverse", "C132")
m("X118", "Model/Quat.lean", "qInverse", "divR x n)).andThen", "divR (-x) n)).andThen", "real part negated", "inverse of a unit", "C131 C44")
m("X119", "Model/IntElem.lean", "Div CInt", "Int.tdiv a b", "Int.fdiv a b", "division rounds down instead of towards zero", "inverse of integers other than units is zero", "C131 C122")
m("X120", "Model/IntElem.lean", "Sqrt CInt", "Nat.sqrt (Int.toNat x) : ℕ)", "Nat.sqrt (Int.toNat x + 1) : ℕ)", "square root not rounded down", "length rounded down", "C131 C122")
m("X121", "Model/QuatReal.lean", "qNormalize", "fun l => qScalAssign .div s v (.val l)", "fun l => qScalAssign .mul s v (.val l)", "multiplied by the length", "normalize", "C131 C48")
m("X122", "Model/Quat.lean", "qInv", "let k ← divR 1 n", "let k ← divR 1 (n * n)", "norm squared", "inverse is zero outside the units", "C44")
m("X123", "Model/RandomSelf.lean", "randomCone2DSelf", "  let v ← v.put 0 (ct * d0 - st * d1)\n  let d0 ← v.get 0\n  let d1 ← v.get 1\n", "  let v ← v.put 0 (ct * d0 - st * d1)\n", "old first element used", "the second element is computed from the new first one", "C133")
m("X124", "Model/RandomSelf.lean", "randomCone2DSelf", "  v.normalized", "  pure v", "not normalised", "unit vector; division by zero at a quarter turn", "C133")
m("X125", "Model/RandomSelf.lean", "randomCone2DSelf", "(ct * d0 - st * d1)", "(ct * d0 + st * d1)", "rotation the other way in the first element", "closed form of the result", "C133")
m("X126", "Model/RandomSelf.lean", "randomConeSelf", "v.fixed = true ∧ v.size = 2", "v.size = 2", "two-dimensional version for dynamic vectors", "dynamic vectors divide by zero", "C133")
m("X127", "Model/RandomSelf.lean", "randomConeSelf", "| some (.ok v) => some (randomConeMap v v a)", "| some (.ok w) => some (randomConeMap w v a)", "direction kept", "every draw divides by zero", "C133")
m("X128", "Model/RandomSelf.lean", "randomConeSelf", "0 < a ∧ a ≤ Real.pi / 2", "0 < a ∧ a < Real.pi / 2", "quarter turn rejected", "cones up to a quarter turn", "C133")
m("X129", "Model/RoundBuild.lean", "rotationAxisAngleG", "(xxomc + c) (xyomc + zs) (zxomc - ys)", "(xxomc + c) (xyomc - zs) (zxomc - ys)", "sign of an element", "close to the rotation", "C134")
m("X130", "Model/RoundBuild.lean", "rotationAxisAngleG", "let omc := 1 - c", "let omc := 1 - c * c", "versine wrong", "close to the rotation", "C134")
m("X131", "Model/RoundBuild.lean", "rotationAxisAngleG", "let zxomc := z * xomc", "let zxomc := z * yomc", "swapped factor", "close to the rotation", "C134")
m("X132", "Model/RoundBuild.lean", "rotationEulerG", "let a1 := if u.odd then -angle1 else angle1", "let a1 := angle1", "odd orders: second angle not negated", "all twelve orders", "C134")
m("X133", "Model/RoundBuild.lean", "rotationEulerG", "(s1 * s0c2 - c0s2) (s1 * s0s2 + c0c2) (s0 * c1)", "(s1 * s0c2 - c0s2) (s1 * s0s2 + c0c2) (s0 * c2)", "swapped factor", "close to the rotation", "C134")
m("X134", "Model/RoundBuild.lean", "rotationEulerG", "(c0 * s1) (-c1 * c0s2 - s0c2)", "(c0 * s1) (-(c1 * c0s2 - s0c2))", "sign in an order with a repeated axis", "all twelve orders", "C134")
m("X135", "Model/RoundBuild.lean", "qRotationAxisAngleG", "(T.cos (angle / ((2 : ℤ) : K)))", "(T.cos angle)", "half angle forgotten", "quaternion of a close angle", "C134")
m("X136", "Model/RoundBuild.lean", "qRotationAxisAngleG", "T.sin (angle / ((2 : ℤ) : K))", "T.sin angle / ((2 : ℤ) : K)", "sine halved instead of the angle", "quaternion of a close angle", "C134")
m("X137", "Model/RoundBuild.lean", "rotationWorldAxisG", "let m ← m.bput j k s\n  let m ← m.bput k j (-s)", "let m ← m.bput j k (-s)\n  let m ← m.bput k j s", "rotation the other way", "relative error p u", "C134")
m("X138", "Model/RoundBuild.lean", "rotation2DG", "let m := m.identity\n  let s := T.sin angle\n  let c := T.cos angle\n  let m ← m.bput 0 0 c", "let s := T.sin angle\n  let c := T.cos angle\n  let m ← m.bput 0 0 c", "identity forgotten", "identity outside of the rotation", "C134")
m("X139", "Model/RoundBuild.lean", "Trig.rounded", "R.fl (Real.cos x.val)", "R.fl (R.fl (Real.cos x.val))", "rounded twice", "one unit of roundoff", "C134")
m("X140", "Model/EulerTypes.lean", "toEulerAs", "c2 (c0 (atan2 bij (-bik)))", "c2 (atan2 bij (-bik))", "the conversion of the third angle corrected", "the failure", "C135")
m("X141", "Model/EulerTypes.lean", "toEulerAs", "c2 (atan2 bij bii)", "c2 (c1 (atan2 bij bii))", "third angle converted to the second type", "each angle in its own type", "C135")
m("X142", "Model/EulerTypes.lean", "toEulerAs", "Res.ok (c0 (atan2 bjk bkk), a1,", "Res.ok (c1 (atan2 bjk bkk), a1,", "first angle converted to the second type", "each angle in its own type", "C135")
m("X143", "Model/EulerTypes.lean", "toEulerAs", "-(c2 (sign s1 * atan2 (-bkj) bjj))", "c2 (sign s1 * atan2 (-bkj) bjj)", "sign forgotten in gimbal lock", "the angles of the real computation", "C135")
m("X144", "Model/EulerTypes.lean", "toEulerAs", "pure (-r.1, -r.2.1, -r.2.2)", "pure (-r.1, -r.2.1, r.2.2)", "third angle of odd orders not negated", "the angles of the real computation", "C135")
m("X145", "Model/EulerTypes.lean", "toEulerAs", "if s1 > tolerance then do", "if s1 ≥ tolerance then do", "boundary of gimbal lock", "the angles of the real computation", "C135")
m("X146", "Model/AxisTypes.lean", "toAxisAngleAs", "let l := ca len", "let l := ca len + 1", "length one too large", "the angle of the real computation", "C136")
m("X147", "Model/AxisTypes.lean", "toAxisAngleAs", "(ca (b12 - b21)) (ca (b20 - b02)) (ca (b01 - b10))", "(b12 - b21) (b20 - b02) (b01 - b10)", "no conversion of the stored axis", "the failure", "C136")
m("X148", "Model/AxisTypes.lean", "toAxisAngleAs", "ce (atan2 l tmo)", "ca (atan2 l tmo)", "angle converted to the type of the axis", "the angle in its own type", "C136")
m("X149", "Model/AxisTypes.lean", "toAxisAngleAs", "axis.put i (ca (Real.sqrt (bii - bjj - bkk + 1) / 2))", "axis.put i (Real.sqrt (bii - bjj - bkk + 1) / 2)", "no conversion of the largest element", "the failure", "C136")
m("X150", "Model/AxisTypes.lean", "toAxisAngleAs", "else if tmo > 0 then", "else if tmo ≥ 0 then", "boundary of the near-zero case", "the result of the real computation", "C136")
m("X151", "Model/AxisTypes.lean", "toAxisAngleAs", "let axis ← axis.put j (ca (bij * s))", "let axis ← axis.put j (ca bij)", "factor forgotten", "the axis of the real computation", "C136")
m("X152", "Model/AxisTypes.lean", "qToAxisAngleAs", "ce 2 * ce (atan2 (ce l) (ce r))", "ce (2 * atan2 l r)", "conversion of the angle corrected", "the failure", "C137")
m("X153", "Model/AxisTypes.lean", "qToAxisAngleAs", "ce 2 * ce (atan2 (ce l) (ce r))", "ce 2 * ce (atan2 (ce r) (ce l))", "swapped arguments of atan2", "the angle of the real computation", "C137")
m("X154", "Model/AxisTypes.lean", "qToAxisAngleAs", "ce 2 * ce (atan2 (ce l) (ce r))", "ce (atan2 (ce l) (ce r))", "half angle returned", "the angle of the real computation", "C137")
m("X155", "Model/AxisTypes.lean", "qToAxisAngleAs", "AVec.mk3 true (ca x) (ca y) (ca z)", "AVec.mk3 true x y z", "no conversion of the stored axis", "the failure", "C137")
m("X156", "Model/AxisTypes.lean", "qToAxisAngleAs", "    pure (axis.conv ca, ce 2 *", "    pure (axis.conv ce, ce 2 *", "axis converted to the type of the angle", "the axis in its own type", "C137")
m("X157", "Model/RoundVec.lean", "rotateVectorG", "let c ← n.cross v", "let c ← v.cross n", "rotation the other way", "close to the rotated vector", "C138")
m("X158", "Model/RoundVec.lean", "rotateVectorG", "  r.add parallel", "  r.sub parallel", "sign of the parallel part", "close to the rotated vector", "C138")
m("X159", "Model/RoundVec.lean", "rotateVectorG", "let p ← v.sub parallel", "let p ← v.add parallel", "perpendicular part wrong", "close to the rotated vector", "C138")
m("X160", "Model/RoundVec.lean", "rotateVectorG", "let cosAngle := T.cos angle", "let cosAngle := T.sin angle", "sine instead of cosine", "close to the rotated vector", "C138")
m("X161", "Model/RoundProj.lean", "orthographicG", "m.bput 3 2 (-(f + n) * invDepth)", "m.bput 3 2 (-(f - n) * invDepth)", "difference instead of sum", "small relative error", "C139")
m("X162", "Model/RoundProj.lean", "orthographicG", "m.bput 3 2 (-n * invDepth)", "m.bput 3 2 (-f * invDepth)", "far for near", "small relative error", "C139")
m("X163", "Model/RoundProj.lean", "orthographicG", "m.bput 1 1 (two * invHeight)", "m.bput 1 1 (two * invWidth)", "width for height", "small relative error", "C139")
m("X164", "Model/RoundProj.lean", "perspectiveG", "m.bput 3 2 (-s * n * b)", "m.bput 3 2 (s * n * b)", "sign of the depth offset", "small relative error", "C139")
m("X165", "Model/RoundProj.lean", "perspectiveG", "let near2 := two * n", "let near2 := two * f", "far for near", "small relative error", "C139")
m("X166", "Model/RoundProj.lean", "perspectiveG", "m.bput 3 3 0", "m.bput 3 3 1", "corner left one", "zeros are exact", "C139")
