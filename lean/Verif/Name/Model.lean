import Verif.Base
/-
Model of parsename.c.
-/
namespace Name

/-- parsename.c:60-61: scan for two consecutive dots. -/
def hasDotDot : Bytes → Out Bool
  | [] => .ub
  | b :: m =>
    if b = 0 then .ok false
    else if b = c! '.' then do
      let b1 ← rd m 0                           -- str[i + 1]
      if b1 = c! '.' then return true else hasDotDot m
    else hasDotDot m

/-- parsename.c:76-77: bytes until the next dot or NUL. -/
def labelLen : Bytes → Out Nat
  | [] => .ub
  | b :: m =>
    if b = 0 then .ok 0
    else if b = c! '.' then .ok 0
    else (· + 1) <$> labelLen m

/-- parsename.c:90-93: the accepted label characters. -/
def okChar (c : Byte) : Bool :=
  (c ≥ c! 'a' && c ≤ c! 'z') || (c ≥ c! 'A' && c ≤ c! 'Z') ||
  (c ≥ c! '0' && c ≤ c! '9') || c == c! '-' || c == c! '_'

/-- parsename.c:88-95: `for (i = 0; i < j; ++i)` character check. -/
def checkChars : Bytes → Nat → Out Bool
  | _, 0 => .ok true
  | [], _ + 1 => .ub
  | c :: m, j + 1 => if okChar c then checkChars m j else .ok false

/-- parsename.c:107-111: copy `j` label bytes; `none` is `return 0`. -/
def copyLabel (out : Bytes) (pos : Nat) : Bytes → Nat → Out (Option (Bytes × Nat))
  | _, 0 => .ok (some (out, pos))
  | [], _ + 1 => .ub
  | c :: m, j + 1 =>
    if pos ≥ 255 then .ok none                  -- :108
    else match wr out pos c with                -- :109
      | .ub => .ub
      | .ok out => copyLabel out (pos + 1) m j

/-- parsename.c:79-111: the body of the loop for one label of length `j` at
`str`. `none` is `return 0`. -/
def oneLabel (out : Bytes) (pos : Nat) (str : Bytes) (j : Nat) : Out (Option (Bytes × Nat)) := do
  if j > 63 then return none                    -- :80
  else
    let good ← checkChars str j                 -- :88-95
    if !good then return none
    else
      let first ← rd str 0                      -- :98
      if first = c! '-' then return none
      else
        -- :99 reads str[j-1]; j = 0 would read before the string
        let last ← (if j = 0 then .ub else rd str (j - 1))
        if last = c! '-' then return none
        else if pos ≥ 255 then return none      -- :103
        else
          let out ← wr out pos (UInt8.ofNat j)  -- :104
          copyLabel out (pos + 1) str j

/-- parsename.c:67-112: the main loop. `none` is `return 0`. After a label the
pointer has advanced by the label length. -/
def loop (out : Bytes) (pos : Nat) (str : Bytes) : Out (Option (Bytes × Nat)) :=
  match str with
  | [] => .ub
  | b :: m =>
    if b = 0 then .ok (some (out, pos))
    else if b = c! '.' then loop out pos m       -- :69-72
    else match labelLen (b :: m) with
      | .ub => .ub
      | .ok j => match oneLabel out pos (b :: m) j with
        | .ub => .ub
        | .ok none => .ok none
        | .ok (some (out, pos)) => if j = 0 then .ub else loop out pos ((b :: m).drop j)
termination_by str.length
decreasing_by
  · simp
  · simp only [List.length_drop, List.length_cons]; omega

/-- parsename.c:48-118 `parsename_` on an output buffer of parsename_BYTES = 256 (parsename.h). Returns the C
return value and the output buffer afterwards. -/
def parsename_ (out : Bytes) (str : Option Bytes) : Out (Nat × Bytes) :=
  match str with
  | none => .ok (0, out)                                       -- :56
  | some str => do
    let b0 ← rd str 0
    let lead ← (if b0 = c! '.' then do
      let b1 ← rd str 1
      pure (decide (b1 ≠ 0)) else pure false)                   -- :59
    if lead then return (0, out)
    else
      let dd ← hasDotDot str                                   -- :60-61
      if dd then return (0, out)
      else
        -- :64, the loop writes indices 0..255
        let out ← (if 256 ≤ out.length then .ok (List.replicate 256 0 ++ out.drop 256) else .ub)
        match ← loop out 0 str with
        | none => return (0, out)   -- partially filled in C; contents unspecified on failure
        | some (out', pos) =>
          if pos ≥ 255 then return (0, out')                   -- :115
          else
            let out'' ← wr out' pos 0                          -- :116
            return (1, out'')

/-- parsename.c:130-150 `parsename` (errno, logging not modelled). -/
def parsename (out : Bytes) (str : Option Bytes) : Out (Nat × Bytes) :=
  match str with
  | none => .ok (0, out)
  | some s => parsename_ out (some s)

end Name
