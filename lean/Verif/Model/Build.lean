import Verif.Base

/-!
# Building native and precompiled classes

Models `SPVM::Builder::Util::need_generate` (lib/SPVM/Builder/Util.pm 96-142) and the builds that use it:
`build_precompile_class_source_file`, `compile_class` and `link` in lib/SPVM/Builder/CC.pm 134-170, 257-586, 598-778, in the order
of `SPVM::Builder::build` (lib/SPVM/Builder.pm 134-215).

Simplifications: one class without resources; the contents of files are of an unspecified type; the precompiler, the C compiler and
the linker are functions of the contents they read; a rule is one step of the file system; time is the clock of the file
system, of which the file times are whole seconds (`stat`, element 9).
-/

namespace SPVM.Build

/-- The files of a build: written by people (`src`), the SPVM version header (`ver`), the generated C source of a precompiled class
(`gen`), the object file of the class source (`objc`) and of a native source (`obj`), the library (`lib`). -/
inductive Name where
  | src (n : Nat)
  | ver
  | gen
  | objc
  | obj (n : Nat)
  | lib
deriving DecidableEq

structure File (β : Type) where
  data : β
  mtime : Nat
deriving DecidableEq

abbrev Fs (β : Type) := Name → Option (File β)

def Fs.write (fs : Fs β) (n : Name) (f : Option (File β)) : Fs β := fun m => if m = n then f else fs m

/-- The contents of a file, if it exists. -/
def Fs.data (fs : Fs β) (n : Name) : Option β := (fs n).map File.data

/-- The loop over the input files, Util.pm 114-124: the latest time, and whether one exists. -/
def scan (fs : Fs β) : List Name → Nat → Bool → Nat × Bool
  | [], mx, any => (mx, any)
  | i :: is, mx, any =>
    match fs i with
    | some f => scan fs is (if f.mtime > mx then f.mtime else mx) true
    | none => scan fs is mx any

/-- `need_generate`, Util.pm 96-142. -/
def needGenerate (fs : Fs β) (force : Bool) (out : Name) (ins : List Name) : Bool :=
  if force then true
  else
    match fs out with
    | none => true
    | some o =>
      let r := scan fs ins 0 false
      if r.2 then
        let vt := match fs .ver with
          | some v => v.mtime
          | none => 0
        let mx := if vt > r.1 then vt else r.1
        decide (mx > o.mtime)
      else false

/-- What is built: the class file, the files of the classes whose constants it uses (a call of an `enum` method is replaced by
its value, spvm_check.c 3152), the config file, the native class source, the headers below the include directories, the native
sources the config names, and the three programs. -/
structure Proj (β : Type) where
  precomp : Bool
  cls : Nat
  deps : List Nat
  cfg : Option Nat
  csrc : Nat
  hdrs : List Nat
  srcs : Option β → List Nat
  tr : Option β → List (Option β) → β
  cc : Option β → Option β → List (Option β) → Option β → β
  ld : Option β → List (Option β) → β

/-- A source file that is compiled: the one of the class, or a native source. -/
inductive Src where
  | cls
  | nat (n : Nat)
deriving DecidableEq

/-- The file that is compiled, CC.pm 433-459. -/
def Proj.srcOf (p : Proj β) : Src → Name
  | .cls => if p.precomp then .gen else .src p.csrc
  | .nat n => .src n

/-- Its object file, CC.pm 471-488. -/
def objOf : Src → Name
  | .cls => .objc
  | .nat n => .obj n

structure World (β : Type) where
  fs : Fs β
  clock : Nat

/-- The contents of the config file. -/
def Proj.cfgData (p : Proj β) (fs : Fs β) : Option β :=
  match p.cfg with
  | none => none
  | some c => fs.data (.src c)

/-- The input files of a compilation, CC.pm 555-559. -/
def Proj.ins (p : Proj β) (u : Src) : List Name :=
  p.srcOf u :: .src p.cls :: (p.hdrs.map .src ++ p.cfg.toList.map .src)

/-- The source files that exist, CC.pm 451-467. -/
def Proj.units (p : Proj β) (fs : Fs β) : List Src :=
  (.cls :: (p.srcs (p.cfgData fs)).map .nat).filter fun u => (fs (p.srcOf u)).isSome

/-- `build_precompile_class_source_file`, CC.pm 134-170. -/
def genStep (p : Proj β) (force : Bool) (dt : Name → Nat) (w : World β) : World β :=
  let now := w.clock + dt .gen
  if needGenerate w.fs force .gen [.src p.cls] then
    { fs := w.fs.write .gen (some ⟨p.tr (w.fs.data (.src p.cls)) (p.deps.map fun d => w.fs.data (.src d)), now⟩), clock := now }
  else { w with clock := now }

/-- One turn of the loop over the source files, CC.pm 461-583. -/
def compileStep (p : Proj β) (force : Bool) (dt : Name → Nat) (w : World β) (u : Src) : World β :=
  let now := w.clock + dt (objOf u)
  if needGenerate w.fs force (objOf u) (p.ins u) then
    { fs := w.fs.write (objOf u) (some ⟨p.cc (w.fs.data .ver) (w.fs.data (p.srcOf u)) (p.hdrs.map fun h => w.fs.data (.src h))
        (p.cfgData w.fs), now⟩), clock := now }
  else { w with clock := now }

/-- `link`, CC.pm 598-778.  Only the object files are inputs of `need_generate`; the flags come from the config. -/
def linkStep (p : Proj β) (force : Bool) (dt : Name → Nat) (us : List Src) (w : World β) : World β :=
  let now := w.clock + dt .lib
  if us = [] then w
  else if needGenerate w.fs force .lib (us.map objOf) then
    { fs := w.fs.write .lib (some ⟨p.ld (p.cfgData w.fs) (us.map fun u => w.fs.data (objOf u)), now⟩), clock := now }
  else { w with clock := now }

/-- `SPVM::Builder::build`, Builder.pm 134-215: `dt n` is the time that passes before `n` is looked at. -/
def build (p : Proj β) (force : Bool) (dt : Name → Nat) (w : World β) : World β :=
  let w1 := if p.precomp then genStep p force dt w else w
  let us := p.units w1.fs
  linkStep p force dt us (us.foldl (compileStep p force dt) w1)

/-- What happens to the files of a project: somebody saves a file, puts back a file with its old time (`cp -p`), removes a file; time
passes; the class is built. -/
inductive Ev (β : Type) where
  | edit (n : Name) (d : β)
  | put (n : Name) (d : β) (t : Nat)
  | remove (n : Name)
  | wait (k : Nat)
  | build (dt : Name → Nat)

def apply (p : Proj β) (w : World β) : Ev β → World β
  | .edit n d => { w with fs := w.fs.write n (some ⟨d, w.clock⟩) }
  | .put n d t => { w with fs := w.fs.write n (some ⟨d, t⟩) }
  | .remove n => { w with fs := w.fs.write n none }
  | .wait k => { w with clock := w.clock + k }
  | .build dt => build p false dt w

def history (p : Proj β) (w : World β) (es : List (Ev β)) : World β := es.foldl (apply p) w

/-! ### Names of C functions -/

/-- `s/:/_/g`, Util.pm 593. -/
def underscore (s : List Char) : List Char := s.map fun c => if c = ':' then '_' else c

/-- The name of a class from its parts. -/
def className : List (List Char) → List Char
  | [] => []
  | [p] => p
  | p :: ps => p ++ ':' :: ':' :: className ps

/-- `create_cfunc_name`, Util.pm 580-597. -/
def cfuncName (native : Bool) (cls method : List Char) : List Char :=
  (if native then "SPVM__".toList else "SPVMPRECOMPILE__".toList) ++ underscore (cls ++ ':' :: ':' :: method)

/-- The object file of a native source, CC.pm 480-485: `s/\.[^\.]+$/.o/` (a final dot with nothing behind it stays). -/
def objectBase (s : List Char) : List Char :=
  let ext := s.reverse.takeWhile (· ≠ '.')
  let rest := s.reverse.dropWhile (· ≠ '.')
  match ext, rest with
  | _ :: _, _ :: r => r.reverse ++ ['.', 'o']
  | _, _ => s

end SPVM.Build
