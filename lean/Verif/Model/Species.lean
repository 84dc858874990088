import Verif.Base
import Mathlib.Data.Real.Basic
import Mathlib.Analysis.Real.Sqrt

/-
Model of the test-bed species: src/multi_physics/test_program/src/species.cpp, species.h, leptons.cpp, photons.cpp.
Particles are stored as a structure of arrays. Numbers are real numbers.
-/
namespace Picsar
namespace Species

/-- species.h:58-65: the per-particle arrays `pos[3]`, `mom[3]`, `fields[6]`, `optical_depth`, `flag`. -/
structure Arrays where
  x : List ℝ
  y : List ℝ
  z : List ℝ
  px : List ℝ
  py : List ℝ
  pz : List ℝ
  ex : List ℝ
  ey : List ℝ
  ez : List ℝ
  bx : List ℝ
  by' : List ℝ
  bz : List ℝ
  depth : List ℝ
  flag : List Bool

/-- An empty species. -/
def Arrays.empty : Arrays := ⟨[], [], [], [], [], [], [], [], [], [], [], [], [], []⟩

/-- species.cpp:21-23 `get_num_particles`. -/
def Arrays.num (s : Arrays) : ℕ := s.x.length

/-- The same `std::vector` operation performed on every array, in the order of the code (species.cpp:90-128). -/
def Arrays.each (f : ∀ {α : Type}, List α → Res (List α)) (s : Arrays) : Res Arrays := do
  let x ← f s.x
  let y ← f s.y
  let z ← f s.z
  let px ← f s.px
  let py ← f s.py
  let pz ← f s.pz
  let ex ← f s.ex
  let ey ← f s.ey
  let ez ← f s.ez
  let bx ← f s.bx
  let by' ← f s.by'
  let bz ← f s.bz
  let depth ← f s.depth
  let flag ← f s.flag
  pure ⟨x, y, z, px, py, pz, ex, ey, ez, bx, by', bz, depth, flag⟩

/-- `v.erase(v.begin()+i)`: undefined behaviour unless `i < v.size()`. -/
def erase1 {α : Type} (i : ℕ) (l : List α) : Res (List α) :=
  if i < l.length then .ok (l.eraseIdx i) else .error .outOfBounds

/-- `v.erase(v.begin()+i, v.end())`: undefined behaviour unless `i <= v.size()`. -/
def eraseToEnd {α : Type} (i : ℕ) (l : List α) : Res (List α) :=
  if i ≤ l.length then .ok (l.take i) else .error .outOfBounds

/-- `v[idest] = v[isource]`. -/
def copyElem {α : Type} (isource idest : ℕ) (l : List α) : Res (List α) := do
  let v ← rd l isource
  wr l idest v

/-- species.cpp:65-76 `add_particle`. -/
def addParticle (s : Arrays) (x y z px py pz : ℝ) : Arrays :=
  ⟨s.x ++ [x], s.y ++ [y], s.z ++ [z], s.px ++ [px], s.py ++ [py], s.pz ++ [pz],
   s.ex ++ [0], s.ey ++ [0], s.ez ++ [0], s.bx ++ [0], s.by' ++ [0], s.bz ++ [0],
   s.depth ++ [0], s.flag ++ [false]⟩

/-- species.cpp:90-102 `remove_particle`. -/
def removeParticle (s : Arrays) (i : ℕ) : Res Arrays := s.each (erase1 i)

/-- species.cpp:104-116 `remove_particles_from_toend`. -/
def removeToEnd (s : Arrays) (i : ℕ) : Res Arrays := s.each (eraseToEnd i)

/-- species.cpp:118-128 `overwrite_particle`. -/
def overwrite (s : Arrays) (isource idest : ℕ) : Res Arrays := s.each (copyElem isource idest)

/-- species.cpp:133-142, the inner loop for one index `ki`: walks down from `ll`; returns the particle to move into `ki`, if
any, and the final `ll`. `binary_search` on the sorted vector is modelled by membership. -/
def findFill (kills : List ℕ) (ki : ℕ) : ℕ → Option ℕ × ℕ
  | 0 => (none, 0)
  | ll + 1 =>
    if ll + 1 > ki then
      if ll + 1 ∉ kills then (some (ll + 1), ll) else findFill kills ki ll
    else (none, ll + 1)

/-- species.cpp:132-143, the outer loop. -/
def killLoop (kills : List ℕ) : List ℕ → ℕ → Arrays → Res Arrays
  | [], _, s => .ok s
  | ki :: ks, last, s =>
    match findFill kills ki last with
    | (some src, ll) => do
      let s' ← overwrite s src ki
      killLoop kills ks ll s'
    | (none, ll) => killLoop kills ks ll s

/-- species.cpp:130-145 `remove_particles_given_sorted_indices`; `size()-1` wraps on `size_t`. -/
def removeSorted (s : Arrays) (kills : List ℕ) : Res Arrays := do
  let s' ← killLoop kills kills ((s.num + (2 ^ 64 - 1)) % 2 ^ 64) s
  removeToEnd s' ((s'.num + (2 ^ 64 - kills.length)) % 2 ^ 64)

/-- One particle as seen by a process (species.cpp:51-56), or as an element of the population. -/
structure Particle where
  x : ℝ
  y : ℝ
  z : ℝ
  px : ℝ
  py : ℝ
  pz : ℝ
  ex : ℝ
  ey : ℝ
  ez : ℝ
  bx : ℝ
  by' : ℝ
  bz : ℝ
  depth : ℝ
  flag : Bool

/-- species.cpp:51-56: the reads of the `i`-th element of every array. -/
def readParticle (s : Arrays) (i : ℕ) : Res Particle := do
  let x ← rd s.x i
  let y ← rd s.y i
  let z ← rd s.z i
  let px ← rd s.px i
  let py ← rd s.py i
  let pz ← rd s.pz i
  let ex ← rd s.ex i
  let ey ← rd s.ey i
  let ez ← rd s.ez i
  let bx ← rd s.bx i
  let by' ← rd s.by' i
  let bz ← rd s.bz i
  let depth ← rd s.depth i
  let flag ← rd s.flag i
  pure ⟨x, y, z, px, py, pz, ex, ey, ez, bx, by', bz, depth, flag⟩

/-- species.cpp:50-58: collect the indices of the particles the process destroys. The process may have side effects on other
objects, not on this species; `sel` is its verdict. -/
def collect (s : Arrays) (sel : Particle → Bool) : List ℕ → Res (List ℕ)
  | [] => .ok []
  | i :: is => do
    let p ← readParticle s i
    let rest ← collect s sel is
    pure (if sel p then i :: rest else rest)

/-- species.cpp:48-62 `do_process_with_destruction` for a registered process with verdict `sel`. -/
def doDestruction (s : Arrays) (sel : Particle → Bool) : Res Arrays := do
  let kills ← collect s sel (List.range s.num)
  removeSorted s kills

/-- Write the `i`-th element of the six field arrays (species.cpp:150-154). -/
def writeFields (s : Arrays) (i : ℕ) (f : ℝ × ℝ × ℝ × ℝ × ℝ × ℝ) : Res Arrays := do
  let ex ← wr s.ex i f.1
  let ey ← wr s.ey i f.2.1
  let ez ← wr s.ez i f.2.2.1
  let bx ← wr s.bx i f.2.2.2.1
  let by' ← wr s.by' i f.2.2.2.2.1
  let bz ← wr s.bz i f.2.2.2.2.2
  pure { s with ex := ex, ey := ey, ez := ez, bx := bx, by' := by', bz := bz }

/-- A loop over particle indices. -/
def forParts (body : ℕ → Arrays → Res Arrays) : List ℕ → Arrays → Res Arrays
  | [], s => .ok s
  | i :: is, s => do
    let s' ← body i s
    forParts body is s'

/-- species.cpp:147-156 `calc_fields`. -/
def calcFields (em : ℝ → ℝ → ℝ → ℝ × ℝ × ℝ × ℝ × ℝ × ℝ) (s : Arrays) : Res Arrays :=
  forParts (fun i s => do
    let p ← readParticle s i
    writeFields s i (em p.x p.y p.z)) (List.range s.num) s

/-- Write the position of particle `i`. -/
def writePos (s : Arrays) (i : ℕ) (x y z : ℝ) : Res Arrays := do
  let x ← wr s.x i x
  let y ← wr s.y i y
  let z ← wr s.z i z
  pure { s with x := x, y := y, z := z }

/-- Write the momentum of particle `i`. -/
def writeMom (s : Arrays) (i : ℕ) (px py pz : ℝ) : Res Arrays := do
  let px ← wr s.px i px
  let py ← wr s.py i py
  let pz ← wr s.pz i pz
  pure { s with px := px, py := py, pz := pz }

/-- leptons.cpp:13-18: new position of one lepton (momentum in units of mc, lengths in units of c times time). -/
noncomputable def leptonDrift (dt : ℝ) (p : Particle) : ℝ × ℝ × ℝ :=
  let inv := 1 / Real.sqrt (1 + p.px * p.px + p.py * p.py + p.pz * p.pz)
  let coeff := dt * inv
  (p.x + coeff * p.px, p.y + coeff * p.py, p.z + coeff * p.pz)

/-- leptons.cpp:9-20 `leptons::push_positions`. -/
noncomputable def leptonPushPos (dt : ℝ) (s : Arrays) : Res Arrays :=
  forParts (fun i s => do
    let p ← readParticle s i
    let q := leptonDrift dt p
    writePos s i q.1 q.2.1 q.2.2) (List.range s.num) s

/-- leptons.cpp:36-65: new momentum of one lepton, `beta = 0.5*charge*dt/mass`. -/
noncomputable def leptonBoris (beta : ℝ) (p : Particle) : ℝ × ℝ × ℝ :=
  let ptx := p.px + beta * p.ex
  let pty := p.py + beta * p.ey
  let ptz := p.pz + beta * p.ez
  let g := beta / Real.sqrt (1 + p.px * p.px + p.py * p.py + p.pz * p.pz)
  let bx := g * p.bx
  let by' := g * p.by'
  let bz := g * p.bz
  let b2 := bx * bx + by' * by' + bz * bz
  let coeff := 1 / (1 + b2)
  let ptvbx := pty * bz - ptz * by'
  let ptvby := ptz * bx - ptx * bz
  let ptvbz := ptx * by' - pty * bx
  let ptdb := ptx * bx + pty * by' + ptz * bz
  let pnx := coeff * (ptx + ptvbx + ptdb * bx)
  let pny := coeff * (pty + ptvby + ptdb * by')
  let pnz := coeff * (ptz + ptvbz + ptdb * bz)
  (2 * pnx - p.px, 2 * pny - p.py, 2 * pnz - p.pz)

/-- leptons.cpp:30-67 `leptons::do_boris_pusher`. -/
noncomputable def leptonPushMom (beta : ℝ) (s : Arrays) : Res Arrays :=
  forParts (fun i s => do
    let p ← readParticle s i
    let q := leptonBoris beta p
    writeMom s i q.1 q.2.1 q.2.2) (List.range s.num) s

/-- photons.cpp:16-20: new position of one photon; `none`: the momentum vanishes and the result is not a number. -/
noncomputable def photonDrift (dt : ℝ) (p : Particle) : Option (ℝ × ℝ × ℝ) :=
  let n := Real.sqrt (p.px * p.px + p.py * p.py + p.pz * p.pz)
  if n = 0 then none
  else
    let coeff := dt * (1 / n)
    some (p.x + coeff * p.px, p.y + coeff * p.py, p.z + coeff * p.pz)

/-- Components of a `std::array` of vectors: `pos[k]`. -/
def swapCols {α : Type} (cols : List α) (i j : ℕ) : Res (List α) := do
  let a ← rd cols i
  let b ← rd cols j
  let c1 ← wr cols i b
  wr c1 j a

/-- Repeat an operation. -/
def times {α : Type} (f : α → Res α) : ℕ → α → Res α
  | 0, a => .ok a
  | n + 1, a => do
    let b ← f a
    times f n b

/-- `std::swap(v[i], v[j])` on one array. -/
def swapElems {α : Type} (i j : ℕ) (l : List α) : Res (List α) := swapCols l i j

/-- species.cpp:78-88 `swap_particles`: three times `swap(pos[index1], pos[index2])` (whole component arrays), the same for the
momenta, six times for the fields, and one element swap for optical depth and flag. -/
def swapParticles (s : Arrays) (i j : ℕ) : Res Arrays := do
  let pos ← times (fun c => swapCols c i j) 3 [s.x, s.y, s.z]
  let mom ← times (fun c => swapCols c i j) 3 [s.px, s.py, s.pz]
  let fld ← times (fun c => swapCols c i j) 6 [s.ex, s.ey, s.ez, s.bx, s.by', s.bz]
  let depth ← swapElems i j s.depth
  let flag ← swapElems i j s.flag
  match pos, mom, fld with
  | [x, y, z], [px, py, pz], [ex, ey, ez, bx, by', bz] =>
    pure ⟨x, y, z, px, py, pz, ex, ey, ez, bx, by', bz, depth, flag⟩
  | _, _, _ => .error .outOfBounds

/-! ### Registered processes -/

/-- species.h:67: `std::map<int, simple_process>`: entries sorted by key; `none` is an empty `std::function`. -/
abbrev Registry (P : Type) := List (ℤ × Option P)

/-- `map.find(ID) != map.end()`. -/
def Registry.has {P : Type} (m : Registry P) (id : ℤ) : Bool := m.any fun e => e.1 == id

/-- `map.insert` / `operator[]` on a key that is not present: ordered insertion. -/
def Registry.insert {P : Type} (m : Registry P) (id : ℤ) (p : Option P) : Registry P :=
  match m with
  | [] => [(id, p)]
  | e :: m' => if id < e.1 then (id, p) :: e :: m' else e :: Registry.insert m' id p

/-- `map.find(ID)->second`. -/
def Registry.get {P : Type} (m : Registry P) (id : ℤ) : Option (Option P) := (m.find? fun e => e.1 == id).map (·.2)

/-- species.cpp:25-30 `add_simple_process` (and 42-47): the returned registry, and whether the call threw `logic_error`. -/
def addProcess {P : Type} (m : Registry P) (id : ℤ) (p : P) : Registry P × Bool :=
  if m.has id then (m, true) else (m.insert id (some p), false)

/-- species.cpp:32-36 `do_all_simple_processes`: processes are functions on the species data; an empty function throws
`bad_function_call`. -/
def doAll {D : Type} (m : Registry (D → D)) (d : D) : Res D :=
  match m with
  | [] => .ok d
  | (_, none) :: _ => .error .exception
  | (_, some f) :: m' => doAll m' (f d)

/-- species.cpp:38-40 `do_simple_process`: `simple_processes[ID]` inserts an empty function when the identifier is unknown;
calling it throws. -/
def doOne {D : Type} (m : Registry (D → D)) (id : ℤ) (d : D) : Registry (D → D) × Res D :=
  match m.get id with
  | some (some f) => (m, .ok (f d))
  | some none => (m, .error .exception)
  | none => (m.insert id none, .error .exception)

end Species
end Picsar
