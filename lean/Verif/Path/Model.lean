import Verif.Base
/-
Model of fixpath.c and fixname.c: in-place rewriting of a string.
-/
namespace Path

/-- fixpath.c:33: `j && (s[j - 1] == '/')`. -/
def afterSlash (mem : Bytes) (j : Nat) : Out Bool :=
  match j with
  | 0 => .ok false
  | j + 1 => (fun b => b == c! '/') <$> rd mem j

/-- fixpath.c:31-38, the loop. `k` is the number of bytes of the object from
index `i` on, so `k = 0` means that `s[i]` is outside the object. -/
def fixLoop : (k : Nat) → (mem : Bytes) → (i j : Nat) → Out (Bytes × Nat)
  | 0, _, _, _ => .ub
  | k + 1, mem, i, j =>
    match rd mem i with
    | .ub => .ub
    | .ok ch =>
      if ch = 0 then .ok (mem, j)
      else
        match afterSlash mem j with
        | .ub => .ub
        | .ok sl =>
          let ch := if sl = true ∧ ch = c! '.' then c! ':' else ch     -- :34
          if sl = true ∧ ch = c! '/' then fixLoop k mem (i + 1) j      -- :35
          else
            match wr mem j ch with                                     -- :37
            | .ub => .ub
            | .ok mem => fixLoop k mem (i + 1) (j + 1)

/-- fixpath.c:25-40: the memory afterwards. -/
def fixpath (mem : Bytes) : Out Bytes := do
  let (mem, j) ← fixLoop mem.length mem 0 0
  wr mem j 0

/-- fixname.c:23-28, the loop. -/
def fixname : Bytes → Out Bytes
  | [] => .ub
  | b :: m =>
    if b = 0 then .ok (b :: m)
    else if b = c! '@' then .ok (0 :: m)
    else (b :: ·) <$> fixname m

end Path
