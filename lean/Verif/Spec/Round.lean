import Verif.Model.Float
import Verif.Spec.Mat
import Verif.Spec.Expr
import Mathlib.Data.Matrix.Mul

/-! Notions used to state rounding error bounds. -/

namespace CML

/-- The usual error constant `γ_k = k u / (1 - k u)`. -/
noncomputable def gamma (u : ℝ) (k : ℕ) : ℝ := k * u / (1 - k * u)

/-- The real matrix held by a matrix of rounded numbers. -/
def realM {R : Rounding} {m n : Nat} (A : Matrix (Fin m) (Fin n) (Fl R)) : Matrix (Fin m) (Fin n) ℝ :=
  fun i j => (A i j).val

/-- The real vector held by a vector of rounded numbers. -/
def realV {R : Rounding} {n : Nat} (p : Fin n → Fl R) : Fin n → ℝ := fun i => (p i).val

/-- The matrix of absolute values. -/
def absM {m n : Nat} (A : Matrix (Fin m) (Fin n) ℝ) : Matrix (Fin m) (Fin n) ℝ := fun i j => |A i j|

/-- The vector of absolute values. -/
def absV {n : Nat} (p : Fin n → ℝ) : Fin n → ℝ := fun i => |p i|

/-- The determinant with all terms taken with a plus sign (expansion along the first row). -/
noncomputable def plusDet : (n : Nat) → Matrix (Fin n) (Fin n) ℝ → ℝ
  | 0, _ => 1
  | n + 1, A => ∑ j, A 0 j * plusDet n (A.submatrix Fin.succ j.succAbove)

/-- Magnitudes: `|x|` bounds.  An expression evaluated with magnitudes has all its terms with a plus sign. -/
@[ext] structure Mag where
  val : ℝ

namespace Mag
noncomputable instance : Add Mag := ⟨fun a b => ⟨a.val + b.val⟩⟩
noncomputable instance : Sub Mag := ⟨fun a b => ⟨a.val + b.val⟩⟩
noncomputable instance : Mul Mag := ⟨fun a b => ⟨a.val * b.val⟩⟩
noncomputable instance : Div Mag := ⟨fun a b => ⟨a.val / b.val⟩⟩
instance : Neg Mag := ⟨fun a => a⟩
end Mag

/-- Number of roundings that a value went through: an expression evaluated with such counts gives, for each
element, how many rounding errors may have been multiplied. -/
@[ext] structure Cnt where
  val : ℕ

namespace Cnt
instance : Add Cnt := ⟨fun a b => ⟨max a.val b.val + 1⟩⟩
instance : Sub Cnt := ⟨fun a b => ⟨max a.val b.val + 1⟩⟩
instance : Mul Cnt := ⟨fun a b => ⟨a.val + b.val + 1⟩⟩
instance : Div Cnt := ⟨fun a b => ⟨a.val + b.val + 1⟩⟩
instance : Neg Cnt := ⟨fun a => a⟩
end Cnt

/-- Convert the elements of a vector value. -/
def VVal.map {E F : Type} (h : E → F) (p : VVal E) : VVal F := ⟨p.n, fun i => h (p.f i)⟩

/-- Convert the elements of a matrix value. -/
def MVal.map {E F : Type} (h : E → F) (p : MVal E) : MVal F := ⟨p.r, p.c, fun i j => h (p.f i j)⟩

/-- Convert the elements of all variables. -/
def Env.map {E F : Type} (h : E → F) (ρ : Env E) : Env F :=
  ⟨fun x => (ρ.v x).map (VVal.map h), fun x => (ρ.m x).map (MVal.map h)⟩

mutual
/-- Convert the literals of an expression. -/
def VExpr.map {E F : Type} (h : E → F) : VExpr E → VExpr F
  | .var x => .var x
  | .temp f xs => .temp f (xs.map h)
  | .bin o a b => .bin o (a.map h) (b.map h)
  | .scal o a c => .scal o (a.map h) (h c)
  | .neg a => .neg (a.map h)
  | .cross a b => .cross (a.map h) (b.map h)
  | .sub a k => .sub (a.map h) k
  | .row m i => .row (m.map h) i
  | .col m j => .col (m.map h) j
  | .mulMV m v => .mulMV (m.map h) (v.map h)
  | .mulVM v m => .mulVM (v.map h) (m.map h)
/-- Convert the literals of an expression. -/
def MExpr.map {E F : Type} (h : E → F) : MExpr E → MExpr F
  | .var x => .var x
  | .temp t => .temp ⟨t.fixed, t.rows, t.cols, t.elems.map h⟩
  | .bin o a b => .bin o (a.map h) (b.map h)
  | .scal o a c => .scal o (a.map h) (h c)
  | .neg a => .neg (a.map h)
  | .transpose a => .transpose (a.map h)
  | .outer a b => .outer (a.map h) (b.map h)
  | .mul a b => .mul (a.map h) (b.map h)
end

mutual
/-- No division by the scalar zero. -/
def VExpr.DivOk {E : Type} [Zero E] : VExpr E → Prop
  | .var _ => True
  | .temp _ _ => True
  | .bin _ a b => a.DivOk ∧ b.DivOk
  | .scal o a c => a.DivOk ∧ (o = .div → c ≠ 0)
  | .neg a => a.DivOk
  | .cross a b => a.DivOk ∧ b.DivOk
  | .sub a _ => a.DivOk
  | .row m _ => m.DivOk
  | .col m _ => m.DivOk
  | .mulMV m v => m.DivOk ∧ v.DivOk
  | .mulVM v m => v.DivOk ∧ m.DivOk
/-- No division by the scalar zero. -/
def MExpr.DivOk {E : Type} [Zero E] : MExpr E → Prop
  | .var _ => True
  | .temp _ => True
  | .bin _ a b => a.DivOk ∧ b.DivOk
  | .scal o a c => a.DivOk ∧ (o = .div → c ≠ 0)
  | .neg a => a.DivOk
  | .transpose a => a.DivOk
  | .outer a b => a.DivOk ∧ b.DivOk
  | .mul a b => a.DivOk ∧ b.DivOk
end

end CML
