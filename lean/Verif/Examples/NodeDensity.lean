import Verif.Handler.Bbox
import Verif.Float.Props

/-
The example program nodedensity: a picture of how many nodes are where.
-/
namespace Osmium

/-- A signed 32 bit result; overflow is undefined behaviour. (helper for statements and proofs, no counterpart
in /repo) -/
def int32 (x : Int) : Res Int := if InS32 x then .ok x else .error .ub

/-- examples/nodedensity.cpp 19-28: the attributes of the handler; `counts` is the allocated array of
`xsize * ysize` elements, `image` the picture when it has been written. -/
structure Density where
  xsize : Int
  ysize : Int
  factor : Int
  min : Int
  max : Int
  diff : Int
  maxCount : Int
  counts : Nat → Int
  image : Option (List (List Int))

/-- examples/nodedensity.cpp 32-42 constructor.  `m_ysize / 180` is a division of integers.  (Memory
exhaustion is not modelled.) -/
def densityNew (size min max : Int) : Res Density := do
  let xsize ← int32 (size * 2)
  let _ ← int32 (xsize * size)
  let diff ← int32 (max - min)
  return { xsize, ysize := size, factor := size.tdiv 180, min, max, diff, maxCount := 0,
           counts := fun _ => 0, image := none }

/-- The conversion of a double to `int`; out of range it is undefined behaviour.
(examples/nodedensity.cpp 49, 50) -/
def doubleToInt (q : ℚ) : Res Int := int32 (ctrunc q)

/-- examples/nodedensity.cpp 51-54: `if (x < 0) x = 0; if (x >= size) x = size-1`. -/
def intoRange (size x : Int) : Int :=
  let x := if x < 0 then 0 else x
  if x ≥ size then size - 1 else x

/-- examples/nodedensity.cpp 48-55: the index of the element of the array for a position. -/
def densityIndex (d : Density) (p : Position) : Res Int := do
  let x ← doubleToInt (fl (fl (180 + fixToDouble p.x) * d.factor))
  let y ← doubleToInt (fl (fl (90 - fixToDouble p.y) * d.factor))
  let x := intoRange d.xsize x
  let y := intoRange d.ysize y
  int32 (y * d.xsize + x)

/-- examples/nodedensity.cpp 56-61: counting in an element of the array; outside of the array it is undefined
behaviour. -/
def densityCount (d : Density) (n : Int) : Res Density :=
  if 0 ≤ n ∧ n < d.xsize * d.ysize then
    let c := d.counts n.toNat
    let c := if c < 65535 - 1 then c + 1 else c
    .ok { d with
      counts := fun i => if i = n.toNat then c else d.counts i
      maxCount := if c > d.maxCount then c else d.maxCount }
  else .error .ub

/-- examples/nodedensity.cpp 48-62 `node`. -/
def densityNode (d : Density) (p : Position) : Res Density :=
  match densityIndex d p with
  | .error e => .error e
  | .ok n => densityCount d n

/-- examples/nodedensity.cpp 75-78: the color of a pixel.  Dividing by zero is undefined behaviour; the
conversion to `uint8_t` takes the value modulo 256. -/
def densityShade (d : Density) (count : Int) : Res Int := do
  let val := if count < d.min then d.min else count
  let val := if val > d.max then d.max else val
  let v ← int32 (val - d.min)
  let v ← int32 (v * 255)
  if d.diff = 0 then .error .ub
  else
    let v ← int32 (v.tdiv d.diff)
    return v % 256

/-- examples/nodedensity.cpp 74-79: the pixels of a line, of which `k` are left to do, beginning with element
`n` of the array. -/
def densityRow (d : Density) (n : Nat) : Nat → Res (List Int)
  | 0 => .ok []
  | k + 1 =>
    match densityShade d (d.counts n) with
    | .error e => .error e
    | .ok c =>
      match densityRow d (n + 1) k with
      | .error e => .error e
      | .ok cs => .ok (c :: cs)

/-- examples/nodedensity.cpp 72-80: the lines of the picture, of which `k` are left to do. -/
def densityRows (d : Density) (n : Nat) : Nat → Res (List (List Int))
  | 0 => .ok []
  | k + 1 =>
    match densityRow d n d.xsize.toNat with
    | .error e => .error e
    | .ok r =>
      match densityRows d (n + d.xsize.toNat) k with
      | .error e => .error e
      | .ok rs => .ok (r :: rs)

/-- examples/nodedensity.cpp 64-85 `after_nodes`: the picture; gd makes no picture without pixels, and the
null pointer it returns is used. -/
def densityImage (d : Density) : Res Density :=
  if d.xsize ≤ 0 ∨ d.ysize ≤ 0 then .error .ub
  else
    match densityRows d 0 d.ysize.toNat with
    | .error e => .error e
    | .ok rows => .ok { d with image := some rows }

/-- examples/nodedensity.cpp 17-87 the handler; `after_nodes` throws `StopReading` (84).  Undefined behaviour
ends everything. -/
def densityH : HandlerM (Res Density) where
  step s c :=
    match s, c with
    | .ok d, .obj (.node n) =>
      match densityNode d n.position with
      | .ok d => (.ok d, c, false)
      | .error e => (.error e, c, true)
    | .ok d, .after .node => (densityImage d, c, true)
    | .ok d, c => (.ok d, c, false)
    | .error e, c => (.error e, c, true)

/-- examples/nodedensity.cpp 91-111 `main`, for the numbers SIZE, MIN and MAX and a file that leads to the
calls. -/
def densityMain (size min max : Int) (calls : List Cb) : Res Density :=
  readWith densityH (densityNew size min max) calls

end Osmium
