/-!
Model of the vector hash: `/repo/cml/common/hash.h` and `/repo/cml/util/vector_hash.h`.
Unsigned integers are bit vectors of the same width, so wrap-around is exact.
-/

namespace CML

/-- `_HASH_ROTL32(x, r)`, `/repo/cml/common/hash.h:17` (non-MSVC definition). -/
def hashRotl32 (x : BitVec 32) (r : Nat) : BitVec 32 := (x <<< r) ||| (x >>> (32 - r))

/-- `hash_combine_impl(U32&, U32, int_c<4>)`, `/repo/cml/common/hash.h:20-34`; returns the updated
first argument. -/
def hashCombine32 (h1 k1 : BitVec 32) : BitVec 32 :=
  let c1 : BitVec 32 := 0xcc9e2d51
  let c2 : BitVec 32 := 0x1b873593
  let k1 := k1 * c1
  let k1 := hashRotl32 k1 15
  let k1 := k1 * c2
  let h1 := h1 ^^^ k1
  let h1 := hashRotl32 h1 13
  h1 * 5 + 0xe6546b64

/-- `hash_combine_impl(U64&, U64, int_c<8>)`, `/repo/cml/common/hash.h:38-55`. -/
def hashCombine64 (h k : BitVec 64) : BitVec 64 :=
  let m : BitVec 64 := 0xc6a4a7935bd1e995
  let k := k * m
  let k := k ^^^ (k >>> 47)
  let k := k * m
  let h := h ^^^ k
  let h := h * m
  h + 0xe6546b64

/-- `std::hash<cml::vector<...>>::operator()`, `/repo/cml/util/vector_hash.h:18-25`, for a vector
whose element hashes (in order) are `hs`; `combine` is the `hash_combine` selected by
`sizeof(std::size_t)`, `/repo/cml/common/hash.h:57-62`. -/
def vectorHash {w : Nat} (combine : BitVec w → BitVec w → BitVec w) (hs : List (BitVec w)) :
    BitVec w :=
  hs.foldl combine 0

end CML
