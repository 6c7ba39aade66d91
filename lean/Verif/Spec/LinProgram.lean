import Verif.Spec.Program
import Verif.Spec.Mat
import Verif.Model.LinStmt
import Verif.Model.VecReal
import Verif.Props.Lu

/-!
Programs with linear algebra: the statements of `Spec/History.lean` together with inverse, transpose,
decomposition, solving, determinants and the element-wise mutators, and what they mean for the store.
-/

namespace CML

/-- The statements of a program.  The variables called `t` and `u` are the temporaries of the call. -/
inductive Stmt (K : Type) where
  | op (o : Op K)
  | vZero (x : Nat)
  | vCardinal (x i : Nat)
  | vExtremize (lower : Bool) (x : Nat) (e : VExpr K)
  | mZero (x : Nat)
  | mIdentity (x : Nat)
  | mSetRow (x i : Nat) (e : VExpr K)
  | mSetCol (x j : Nat) (e : VExpr K)
  | mTranspose (x t : Nat)
  | mInverse (x : Nat)
  | mInverseNew (x t : Nat)
  | mLuNew (x t : Nat)
  | mLuSolve (m x b : Nat)
  | mPivotSolve (m x b t u : Nat)
  | vPutDet (x i m t : Nat)

section
variable {K : Type} [Field K] [LinearOrder K] [IsStrictOrderedRing K]

/-- Execution of a statement; `eps` is `epsilon<value_type>()` of `/repo/cml/scalar/traits.h`. -/
def Stmt.run (eps : K) (s : State K) : Stmt K → Out (State K)
  | .op o => o.run true s
  | .vZero x => CML.vZero true s x
  | .vCardinal x i => CML.vCardinal true s x i
  | .vExtremize lower x e => stmtExtremize true lower s x e
  | .mZero x => CML.mZero true s x
  | .mIdentity x => CML.mIdentity true s x
  | .mSetRow x i e => .withVal (e.build s) s fun n => CML.mSetRow true s x i n
  | .mSetCol x j e => .withVal (e.build s) s fun n => CML.mSetCol true s x j n
  | .mTranspose x t => mTransposeDyn true s x t
  | .mInverse x => CML.mInverse true s x
  | .mInverseNew x t => CML.mInverseNew true s x t
  | .mLuNew x t => CML.mLuNew true s x t
  | .mLuSolve m x b => CML.mLuSolve true s m x b
  | .mPivotSolve m x b t u => CML.mPivotSolve true eps s m x b t u
  | .vPutDet x i m t => CML.vPutDet true eps s x i m t

/-- Execution of a program; it stops at the first exception. -/
def runStmts (eps : K) (s : State K) : List (Stmt K) → Out (State K)
  | [] => .ok s
  | c :: l => (c.run eps s).andThen fun s => runStmts eps s l

/-- `lu_pivot` finds a pivot of at least `eps` in every column of `A` (for when it does, see C38). -/
def PivotOk (eps : K) {n : Nat} (A : Matrix (Fin n) (Fin n) K) : Prop :=
  ∃ r, luPivot false eps (Mat.of A) = .ok r ∧ r.sign ≠ 0

/-- `lu_pivot` gives up with sign 0. -/
def PivotGivesUp (eps : K) {n : Nat} (A : Matrix (Fin n) (Fin n) K) : Prop :=
  ∃ r, luPivot false eps (Mat.of A) = .ok r ∧ r.sign = 0

/-- Matrix `x` of the store has type `cm`, `cb` and is the square matrix `A`. -/
def Store.Square (σ : Store K) (x : Nat) (cm cb : Bool) {n : Nat} (A : Matrix (Fin n) (Fin n) K) : Prop :=
  ∃ c, σ.m x = some c ∧ c.colMajor = cm ∧ c.colBasis = cb ∧ c.val? = some ⟨n, n, A⟩

/-- Vector `x` of the store has the value `p`. -/
def Store.Vector (σ : Store K) (x : Nat) {n : Nat} (p : Fin n → K) : Prop :=
  ∃ c, σ.v x = some c ∧ c.val? = some ⟨n, p⟩

/-- The effect of a statement that is used as documented. -/
inductive Stmt.Means (eps : K) (σ : Store K) : Stmt K → Store K → Prop
  | op {o : Op K} {σ' : Store K} : o.Means σ σ' → Means eps σ (.op o) σ'
  | vZero {x : Nat} {c : VCont K} : σ.v x = some c →
      Means eps σ (.vZero x) (σ.setV x (some (.of ⟨c.n, fun _ => 0⟩)))
  | vCardinal {x i : Nat} {c : VCont K} (hi : i < c.n) : σ.v x = some c →
      Means eps σ (.vCardinal x i) (σ.setV x (some (.of ⟨c.n, Pi.single ⟨i, hi⟩ 1⟩)))
  /-- `x` may occur in the argument, but not under cross products -/
  | vExtremize {lower : Bool} {x : Nat} {e : VExpr K} {n : Nat} {q p : Fin n → K} : σ.Vector x q →
      e.Has σ ⟨n, p⟩ → e.Ahead (fun _ => True) (· ≠ x) (fun _ => True) →
      Means eps σ (.vExtremize lower x e) (σ.setV x (some (.of
        ⟨n, fun i => if lower then min (q i) (p i) else max (q i) (p i)⟩)))
  | mZero {x : Nat} {c : MCont K} : σ.m x = some c →
      Means eps σ (.mZero x) (σ.setM x (some (.of c.colMajor c.colBasis ⟨c.r, c.c, fun _ _ => 0⟩)))
  | mIdentity {x : Nat} {c : MCont K} : σ.m x = some c →
      Means eps σ (.mIdentity x) (σ.setM x (some (.of c.colMajor c.colBasis
        ⟨c.r, c.c, fun i j => if (i : Nat) = j then 1 else 0⟩)))
  /-- the source does not read `x`, or it is a row of `x` -/
  | mSetRow {x i : Nat} {e : VExpr K} {c : MCont K} {p : Fin c.c → K} (hi : i < c.r) : σ.m x = some c →
      e.Has σ ⟨c.c, p⟩ → (e.Leaves (fun _ => True) (· ≠ x) ∨ ∃ k, e = .row (.var x) k) →
      Means eps σ (.mSetRow x i e) (σ.setM x (some ⟨c.colMajor, c.colBasis, c.r, c.c, fun i' j =>
        if (i' : Nat) = i then some (p j) else c.f i' j⟩))
  /-- the source does not read `x`, or it is a column of `x` -/
  | mSetCol {x j : Nat} {e : VExpr K} {c : MCont K} {p : Fin c.r → K} (hj : j < c.c) : σ.m x = some c →
      e.Has σ ⟨c.r, p⟩ → (e.Leaves (fun _ => True) (· ≠ x) ∨ ∃ k, e = .col (.var x) k) →
      Means eps σ (.mSetCol x j e) (σ.setM x (some ⟨c.colMajor, c.colBasis, c.r, c.c, fun i j' =>
        if (j' : Nat) = j then some (p i) else c.f i j'⟩))
  | mTranspose {x t : Nat} {c : MCont K} {q : MVal K} : σ.m x = some c → c.val? = some q → σ.m t = none →
      Means eps σ (.mTranspose x t) (σ.setM x (some (.of c.colMajor c.colBasis ⟨q.c, q.r, fun i j => q.f j i⟩)))
  /-- (for larger matrices see C36) -/
  | mInverse {x n : Nat} {cm cb : Bool} {A : Matrix (Fin n) (Fin n) K} : σ.Square x cm cb A → 1 ≤ n → n ≤ 4 →
      A.det ≠ 0 →
      Means eps σ (.mInverse x) (σ.setM x (some (.of cm cb ⟨n, n, (A⁻¹ : Matrix (Fin n) (Fin n) K)⟩)))
  | mInverseNew {x t n : Nat} {cm cb : Bool} {A : Matrix (Fin n) (Fin n) K} : σ.Square x cm cb A → 1 ≤ n →
      n ≤ 4 → A.det ≠ 0 → σ.m t = none →
      Means eps σ (.mInverseNew x t) (σ.setM t (some (.of cm cb ⟨n, n, (A⁻¹ : Matrix (Fin n) (Fin n) K)⟩)))
  /-- `B` holds both factors: `L` below its diagonal, `U` on and above -/
  | mLuNew {x t n : Nat} {cm cb : Bool} {A B : Matrix (Fin n) (Fin n) K} : σ.Square x cm cb A →
      (∀ k (hk : k < n), (leading A k hk.le).det ≠ 0) → unitLower B * upper B = A → σ.m t = none →
      Means eps σ (.mLuNew x t) (σ.setM t (some (.of cm cb ⟨n, n, B⟩)))
  /-- `x` may be `b`; `x` need not hold any values yet -/
  | mLuSolve {m x b n : Nat} {cm cb : Bool} {B : Matrix (Fin n) (Fin n) K} {c : VCont K} {p q : Fin n → K} :
      σ.Square m cm cb B → σ.Vector b p → σ.v x = some c → c.n = n → (∀ i, B i i ≠ 0) →
      (unitLower B * upper B).mulVec q = p →
      Means eps σ (.mLuSolve m x b) (σ.setV x (some (.of ⟨n, q⟩)))
  | mPivotSolve {m x b t u n : Nat} {cm cb : Bool} {A : Matrix (Fin n) (Fin n) K} {c : VCont K}
      {p q : Fin n → K} : σ.Square m cm cb A → σ.Vector b p → σ.v x = some c → c.n = n → A.det ≠ 0 →
      PivotOk eps A → A.mulVec q = p → σ.m t = none → σ.m u = none → t ≠ u →
      Means eps σ (.mPivotSolve m x b t u) (σ.setV x (some (.of ⟨n, q⟩)))
  | vPutDet {x i m t n : Nat} {cm cb : Bool} {A : Matrix (Fin n) (Fin n) K} {c : VCont K} (hi : i < c.n) :
      σ.v x = some c → σ.Square m cm cb A → 1 ≤ n → (n ≤ 4 ∨ PivotOk eps A) → σ.m t = none →
      Means eps σ (.vPutDet x i m t) (σ.setV x (some ⟨c.n, Function.update c.f ⟨i, hi⟩ (some A.det)⟩))

/-- Statements that have to be rejected. -/
inductive Stmt.Rejected (eps : K) (σ : Store K) : Stmt K → Prop
  | op {o : Op K} : o.Rejected σ → Rejected eps σ (.op o)
  | vExtremize {lower : Bool} {x : Nat} {e : VExpr K} : e.Bad σ → Rejected eps σ (.vExtremize lower x e)
  | vExtremizeSize {lower : Bool} {x : Nat} {e : VExpr K} {c : VCont K} {p : VVal K} : σ.v x = some c →
      e.Has σ p → p.n ≠ c.n → Rejected eps σ (.vExtremize lower x e)
  | mSetRow {x i : Nat} {e : VExpr K} : e.Bad σ → Rejected eps σ (.mSetRow x i e)
  | mSetRowSize {x i : Nat} {e : VExpr K} {c : MCont K} {p : VVal K} : σ.m x = some c → e.Has σ p → p.n ≠ c.c →
      Rejected eps σ (.mSetRow x i e)
  | mSetCol {x j : Nat} {e : VExpr K} : e.Bad σ → Rejected eps σ (.mSetCol x j e)
  | mSetColSize {x j : Nat} {e : VExpr K} {c : MCont K} {p : VVal K} : σ.m x = some c → e.Has σ p → p.n ≠ c.r →
      Rejected eps σ (.mSetCol x j e)
  | mInverse {x : Nat} {c : MCont K} : σ.m x = some c → c.r ≠ c.c → Rejected eps σ (.mInverse x)
  | mInverseNew {x t : Nat} {c : MCont K} : σ.m x = some c → c.r ≠ c.c → Rejected eps σ (.mInverseNew x t)
  | mLuNew {x t : Nat} {c : MCont K} : σ.m x = some c → c.r ≠ c.c → Rejected eps σ (.mLuNew x t)
  | mLuSolve {m x b : Nat} {c : MCont K} {cx cb : VCont K} : σ.m m = some c → σ.v x = some cx →
      σ.v b = some cb → ¬ (c.r = c.c ∧ c.c = cx.n ∧ c.c = cb.n) → Rejected eps σ (.mLuSolve m x b)
  | mPivotSolve {m x b t u : Nat} {c : MCont K} : σ.m m = some c → c.r ≠ c.c →
      Rejected eps σ (.mPivotSolve m x b t u)
  /-- vectors of the wrong size: noticed after the decomposition -/
  | mPivotSolveSize {m x b t u n : Nat} {cm cb : Bool} {A : Matrix (Fin n) (Fin n) K} {cx cv : VCont K} :
      0 < eps → σ.Square m cm cb A → σ.v x = some cx → σ.v b = some cv → ¬ (n = cx.n ∧ n = cv.n) →
      σ.m t = none → σ.m u = none → t ≠ u → Rejected eps σ (.mPivotSolve m x b t u)
  /-- no decomposition has been found -/
  | mPivotSolveSingular {m x b t u n : Nat} {cm cb : Bool} {A : Matrix (Fin n) (Fin n) K} {cx cv : VCont K} :
      σ.Square m cm cb A → σ.v x = some cx → σ.v b = some cv → PivotGivesUp eps A →
      σ.m t = none → σ.m u = none → t ≠ u → Rejected eps σ (.mPivotSolve m x b t u)
  | vPutDet {x i m t : Nat} {c : MCont K} : σ.m m = some c → c.r ≠ c.c → Rejected eps σ (.vPutDet x i m t)

/-- The effect of a program. -/
inductive SMeans (eps : K) : Store K → List (Stmt K) → Store K → Prop
  | nil (σ : Store K) : SMeans eps σ [] σ
  | cons {σ σ₁ σ₂ : Store K} {c : Stmt K} {l : List (Stmt K)} : c.Means eps σ σ₁ → SMeans eps σ₁ l σ₂ →
      SMeans eps σ (c :: l) σ₂

end

end CML
