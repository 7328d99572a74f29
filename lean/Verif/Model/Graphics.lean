import Verif.Model.Base
/-
Model of what an application and its renderer take from the window system (GLFW) and from the graphics driver (OpenGL) and give back: Renderer.cpp:147-278 and 308-349,
Application.cpp:149-248.

GLFW and OpenGL are represented by the objects they hold. Objects of OpenGL belong to the context of a window and end with it. Which names the driver gives to new objects
and which calls fail is a parameter. A call of OpenGL without a current context is undefined behaviour. The window system calls the callbacks of a window with the
address of its application: that is undefined behaviour if the application does not exist anymore. The user interface (ImGui) has objects of its own, which are not represented.
-/
namespace Simu.Graphics

/-- The kinds of objects of OpenGL the renderer makes. -/
inductive Kind where
  | shader
  | program
  | vertexArray
  | buffer
deriving DecidableEq, Repr

/-- An object of OpenGL: names are given for each kind (shaders and programs share theirs in OpenGL: the model allows more names). -/
structure Obj where
  kind : Kind
  name : Nat
deriving DecidableEq, Repr

/-- The driver: the name of a new object, given the objects that exist, and which calls succeed: `glfwInit` (Application.cpp:151), `glfwCreateWindow` (Application.cpp:156),
the compilation of the two shaders (Renderer.cpp:159-162) and the link (Renderer.cpp:202-206). -/
structure Driver where
  fresh : Kind → List Obj → Nat
  initOk : Bool
  windowOk : Bool
  vertexOk : Bool
  fragmentOk : Bool
  linkOk : Bool

/-- A context of OpenGL: the objects that exist, the shaders attached to programs (program and shader), the shaders and programs that were deleted while attached or in use, the programs that
were linked, and the program in use. -/
structure Context where
  live : List Obj
  attached : List (Nat × Nat)
  deleted : List Obj
  linked : List Nat
  inUse : Option Nat
deriving DecidableEq, Repr

namespace Context

/-- A new context. -/
def new : Context := ⟨[], [], [], [], none⟩

/-- `glCreateShader`, `glCreateProgram`, `glGenVertexArrays` and `glGenBuffers` (Renderer.cpp:151, 192, 239-241). -/
def create (d : Driver) (k : Kind) (g : Context) : Context × Nat := ({ g with live := ⟨k, d.fresh k g.live⟩ :: g.live }, d.fresh k g.live)

/-- Ends the shaders that were deleted and are not attached anymore. -/
def sweep (g : Context) : Context :=
  { g with live := g.live.filter fun o => !(decide (o.kind = .shader) && decide (o ∈ g.deleted) && g.attached.all fun a => a.2 != o.name) }

/-- `glDeleteShader` (Renderer.cpp:174, 217-218): a shader that is attached only ends when it is detached. Names that do not exist are ignored. -/
def deleteShader (n : Nat) (g : Context) : Context :=
  if (⟨.shader, n⟩ : Obj) ∈ g.live then sweep { g with deleted := ⟨.shader, n⟩ :: g.deleted } else g

/-- Ends a program: its shaders are detached. -/
def endProgram (n : Nat) (g : Context) : Context :=
  sweep { g with live := g.live.erase ⟨.program, n⟩, attached := g.attached.filter fun a => a.1 != n, linked := g.linked.filter fun p => p != n }

/-- `glDeleteProgram` (Renderer.cpp:215, 271): a program that is in use only ends when it is not anymore. -/
def deleteProgram (n : Nat) (g : Context) : Context :=
  if (⟨.program, n⟩ : Obj) ∈ g.live then
    if g.inUse = some n then { g with deleted := ⟨.program, n⟩ :: g.deleted } else g.endProgram n
  else g

/-- `glAttachShader` (Renderer.cpp:195-196). -/
def attach (p n : Nat) (g : Context) : Context := { g with attached := (p, n) :: g.attached }

/-- `glDetachShader` (Renderer.cpp:224-225). -/
def detach (p n : Nat) (g : Context) : Context := sweep { g with attached := g.attached.filter fun a => a != (p, n) }

/-- `glLinkProgram` (Renderer.cpp:199), if it succeeds. -/
def link (p : Nat) (g : Context) : Context := { g with linked := p :: g.linked }

/-- `glDeleteVertexArrays` and `glDeleteBuffers` (Renderer.cpp:273-275). Names that do not exist are ignored. -/
def delete (k : Kind) (n : Nat) (g : Context) : Context := { g with live := g.live.erase ⟨k, n⟩ }

/-- `glUseProgram` (Renderer.cpp:310): the program that was in use before ends if it was deleted. An error, and no change, if the program does not exist or is not linked. -/
def useProgram (p : Nat) (g : Context) : Context :=
  if (⟨.program, p⟩ : Obj) ∈ g.live ∧ p ∈ g.linked then
    match g.inUse with
    | none => { g with inUse := some p }
    | some q => if q ≠ p ∧ (⟨.program, q⟩ : Obj) ∈ g.deleted then { g.endProgram q with inUse := some p } else { g with inUse := some p }
  else g

end Context

/-- Renderer.cpp:147-182 `compileShader`; `succeeds` is the status of the compilation. -/
def compileShader (d : Driver) (succeeds : Bool) (g : Context) : Context × Outcome Nat :=
  let (g, n) := g.create d .shader
  if succeeds then (g, .ok n) else (g.deleteShader n, .throw)

/-- Renderer.cpp:184-228 `compileShaderProgram`, after the compilation of the shaders. -/
def linkProgram (d : Driver) (v f : Nat) (g : Context) : Context × Outcome Nat :=
  let (g, p) := g.create d .program
  let g := (g.attach p v).attach p f
  if d.linkOk then (((g.link p).detach p v).detach p f, .ok p)
  else (((g.deleteProgram p).deleteShader v).deleteShader f, .throw)

/-- Renderer.cpp:184-228 `compileShaderProgram`. -/
def compileShaderProgram (d : Driver) (g : Context) : Context × Outcome Nat :=
  match compileShader d d.vertexOk g with
  | (g, .ok v) =>
    match compileShader d d.fragmentOk g with
    | (g, .ok f) => linkProgram d v f g
    | (g, .throw) => (g, .throw)
    | (g, .ub) => (g, .ub)
  | (g, .throw) => (g, .throw)
  | (g, .ub) => (g, .ub)

/-- Renderer.hpp:165-170: the names an `OpenGlRenderer` holds. -/
structure Names where
  program : Nat
  vao : Nat
  vbo : Nat
  ebo : Nat
deriving DecidableEq, Repr

/-- Renderer.cpp:230-267 `OpenGlRenderer::OpenGlRenderer`. Bindings are left out. -/
def makeRenderer (d : Driver) (g : Context) : Context × Outcome Names :=
  match compileShaderProgram d g with
  | (g, .ok p) =>
    let (g, a) := g.create d .vertexArray
    let (g, v) := g.create d .buffer
    let (g, e) := g.create d .buffer
    (g, .ok ⟨p, a, v, e⟩)
  | (g, .throw) => (g, .throw)
  | (g, .ub) => (g, .ub)

/-- Renderer.cpp:269-276 `OpenGlRenderer::~OpenGlRenderer`. -/
def destroyRenderer (r : Names) (g : Context) : Context :=
  (((g.deleteProgram r.program).delete .vertexArray r.vao).delete .buffer r.vbo).delete .buffer r.ebo

/-- Renderer.cpp:308-349 `flush`: whether the batch is drawn, which takes a linked program in use and the three objects. -/
def flush (r : Names) (g : Context) : Context × Bool :=
  let g := g.useProgram r.program
  (g, decide (g.inUse = some r.program) && decide ((⟨.vertexArray, r.vao⟩ : Obj) ∈ g.live) && decide ((⟨.buffer, r.vbo⟩ : Obj) ∈ g.live)
    && decide ((⟨.buffer, r.ebo⟩ : Obj) ∈ g.live) && r.vbo != r.ebo)

/-- The window system: whether it is initialised, the windows made so far and those that exist with their contexts, the address their callbacks get
(`glfwSetWindowUserPointer`), the window whose context is current, and the applications that exist (by their addresses). -/
structure System where
  isInit : Bool
  made : Nat
  window : Nat → Option Context
  user : Nat → Option Nat
  current : Option Nat
  alive : Nat → Bool

namespace System

/-- At the start of the program. -/
def start : System := ⟨false, 0, fun _ => none, fun _ => none, none, fun _ => false⟩

/-- Runs calls of OpenGL in the current context. -/
def inContext {α : Type} (f : Context → Context × α) (s : System) : System × Outcome α :=
  match s.current with
  | none => (s, .ub)
  | some w =>
    match s.window w with
    | none => (s, .ub)
    | some g => ({ s with window := Function.update s.window w (some (f g).1) }, .ok (f g).2)

/-- `glfwDestroyWindow` (Application.cpp:208): the context ends with the window. -/
def destroyWindow (w : Nat) (s : System) : System :=
  { s with window := Function.update s.window w none, current := if s.current = some w then none else s.current }

/-- `glfwTerminate` (Application.cpp:209) destroys all windows. -/
def terminate (s : System) : System := { s with isInit := false, window := fun _ => none, current := none }

end System

/-- Application.hpp:91-92: `renderer_` and `window_`. -/
structure Application where
  window : Nat
  renderer : Names
deriving DecidableEq, Repr

/-- Application.cpp:149-199 `Application::Application`, at address `this`. `glfwInit` succeeds if GLFW is initialised already. A failure of `glfwCreateWindow` throws from the error callback
(Application.cpp:534-539) or from the assertion. The application does not exist if its constructor throws. -/
def makeApplication (d : Driver) (this : Nat) (s : System) : System × Outcome Application :=
  if s.isInit || d.initOk then
    let s := { s with isInit := true }
    if d.windowOk then
      let w := s.made
      let s := { s with made := w + 1, window := Function.update s.window w (some .new), user := Function.update s.user w (some this), current := some w }
      match s.inContext (makeRenderer d) with
      | (s, .ok (.ok r)) => ({ s with alive := Function.update s.alive this true }, .ok ⟨w, r⟩)
      | (s, .ok .throw) => (s, .throw)
      | (s, .ok .ub) => (s, .ub)
      | (s, .throw) => (s, .throw)
      | (s, .ub) => (s, .ub)
    else (s, .throw)
  else (s, .throw)

/-- Application.cpp:201-210 `Application::~Application`. Destroying a window that does not exist anymore is undefined behaviour. -/
def destroyApplication (a : Application) (this : Nat) (s : System) : System × Outcome Unit :=
  match s.inContext fun g => (destroyRenderer a.renderer g, ()) with
  | (s, .ok _) =>
    match s.window a.window with
    | none => (s, .ub)
    | some _ => ({ (s.destroyWindow a.window).terminate with alive := Function.update s.alive this false }, .ok ())
  | (s, .throw) => (s, .throw)
  | (s, .ub) => (s, .ub)

/-- Application.cpp:222, 541-629: `glfwPollEvents` calls the callbacks of the windows that have events. -/
def pollEvents (events : List Nat) (s : System) : Outcome Unit :=
  match events with
  | [] => .ok ()
  | w :: events =>
    match s.window w, s.user w with
    | some _, some this => if s.alive this then pollEvents events s else .ub
    | _, _ => pollEvents events s

/-- The batches of a frame: whether all of them are drawn. -/
def flushes (r : Names) : Nat → Context → Context × Bool
  | 0, g => (g, true)
  | n + 1, g =>
    let (g, drawn) := flush r g
    let (g, others) := flushes r n g
    (g, drawn && others)

/-- What happens in a frame: the windows that have events, and the number of batches drawn. -/
structure Frame where
  events : List Nat
  batches : Nat

/-- Application.cpp:220-247: an iteration of the loop of `run`: whether all that was to be drawn was. `glfwMakeContextCurrent` and `glfwSwapBuffers` need the window. -/
def frame (a : Application) (fr : Frame) (s : System) : System × Outcome Bool :=
  match s.window a.window with
  | none => (s, .ub)
  | some _ =>
    match pollEvents fr.events s with
    | .ok _ =>
      match s.inContext (flushes a.renderer fr.batches) with
      | (s, .ok drawn) => ({ s with current := some a.window }, .ok drawn)
      | (s, .throw) => (s, .throw)
      | (s, .ub) => (s, .ub)
    | .throw => (s, .throw)
    | .ub => (s, .ub)

/-- Application.cpp:217-248 `run`: whether all that was to be drawn in all frames was. -/
def run (a : Application) : List Frame → System → System × Outcome Bool
  | [], s => (s, .ok true)
  | fr :: frames, s =>
    match frame a fr s with
    | (s, .ok drawn) =>
      match run a frames s with
      | (s, .ok others) => (s, .ok (drawn && others))
      | (s, .throw) => (s, .throw)
      | (s, .ub) => (s, .ub)
    | (s, .throw) => (s, .throw)
    | (s, .ub) => (s, .ub)

/-- demos/Demos.cpp:28-40: a program that makes an application, runs it and ends it. -/
def life (d : Driver) (this : Nat) (frames : List Frame) (s : System) : System × Outcome Bool :=
  match makeApplication d this s with
  | (s, .ok a) =>
    match run a frames s with
    | (s, .ok drawn) =>
      match destroyApplication a this s with
      | (s, .ok _) => (s, .ok drawn)
      | (s, .throw) => (s, .throw)
      | (s, .ub) => (s, .ub)
    | (s, .throw) => (s, .throw)
    | (s, .ub) => (s, .ub)
  | (s, .throw) => (s, .throw)
  | (s, .ub) => (s, .ub)

end Simu.Graphics
