import Verif.Spec.MatMem
import Verif.Spec.Mat

/-! Specification notions for the numerical algorithms on matrices in memory. -/

namespace CML

/-- From `s` to `s'` nothing but the content of the memory cells of `d` has changed: the same variables with the
same dimensions and positions, the same blocks, the same content elsewhere; nothing has been allocated. -/
structure Touches {K : Type} (d : VObj) (s s' : State K) : Prop where
  vec : s'.vec = s.vec
  mat : s'.mat = s.mat
  out : SameOutside d s.heap s'.heap
  len : ∀ b, (s'.heap.blk b).map List.length = (s.heap.blk b).map List.length
  next : s'.heap.next = s.heap.next
  tick : s'.heap.tick = s.heap.tick
  fail : s'.heap.fail = s.heap.fail

/-- A matrix value of the numerical algorithms as a value of the expression semantics. -/
def Mat.val {K : Type} (M : Mat K) : MVal K := ⟨M.rows, M.cols, fun i j => M.el i j⟩

end CML
