/-
The pywt functions ptwt calls for automatic levels (external library, trusted semantics).
-/
import Verif.Torch.Tensor

namespace Verif

/-- `pywt.dwt_max_level(data_len, filter_len)`: ValueError if `filter_len < 2`, otherwise
`floor(log2(data_len / (filter_len - 1)))`, 0 if `data_len < filter_len - 1`. -/
def dwtMaxLevel (n F : Nat) : Except Err Nat :=
  if F < 2 then .error .valueError
  else if n < F - 1 then .ok 0
  else .ok (Nat.log2 (n / (F - 1)))

/-- `pywt.dwtn_max_level(shape, wavelet)`: the minimum over the axes. -/
def dwtnMaxLevel (ns : List Nat) (F : Nat) : Except Err Nat := do
  let ls ← ns.mapM (dwtMaxLevel · F)
  match ls with
  | [] => .error .valueError
  | l :: rest => pure (rest.foldl min l)

/-- `pywt.swt_max_level(n)`: how often 2 divides `n` (0 for `n = 0`). -/
def swtMaxLevel (n : Nat) : Nat :=
  if h : 0 < n ∧ n % 2 = 0 then swtMaxLevel (n / 2) + 1 else 0
termination_by n
decreasing_by omega

end Verif
