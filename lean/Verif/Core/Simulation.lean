import Verif.Cable.DynamicSystem
import Verif.Geom.Model

/-!
# Initialization, steps and logs of an offshore system (C147, C148, C149)

`src/frydom/core/FrOffshoreSystem.cpp` (Initialize, ForceInitialize, StepFinalize, AdvanceOneStep, SetSystemType, the overrides of the Chrono systems), `src/frydom/core/body/FrBody.cpp` (Initialize, StepFinalize),
`src/frydom/logging/FrLogManager.cpp` (Initialize, StepFinalize, SetLogFrameConvention), `src/frydom/logging/FrLoggable.cpp`. On top of the containers of `Verif/Core/Registry.lean`. Paths relative to `src/frydom`.

What an object does to the containers of the system when it is initialized (catenary lines put forces on bodies, locked bodies make nodes and a link) is a parameter, `onInit`. Writing a row to a CSV file and what
Chrono does in a step besides the calls below are external. The exits on a null mass or inertia (core/body/FrBody.cpp:279-290), `NoCSVLlog` and the real time monitoring are not modelled.
-/

noncomputable section

namespace Frydom.Core.Simulation
open Frydom.Core.Registry Frydom.Geom
open Frydom.Cable (runAll)

/-- The environment or an object. -/
inductive Who where
  | env
  | obj (x : ℕ)
  deriving DecidableEq

/-- What can be observed: initializations, preparations of the log of an object, finalizations at the end of a step, rows written to a file. -/
inductive Ev where
  | init (w : Who)
  | logInit (x : ℕ)
  | fin (w : Who)
  | row (file : List Char)
  deriving DecidableEq

/-- The program: its objects; what the initialization of an object does to the containers; the names of the messages each object defines (`DefineLogMessages`) and its type name. -/
structure Prog where
  objs : Objs
  onInit : ℕ → Sys → List Op
  messages : ℕ → List (List Char)
  typeName : ℕ → List Char

/-- A system with what concerns initialization, steps and logs. A message is its name and the files of its serializers. -/
structure Sim where
  sys : Sys
  inited : Bool
  smooth : Bool
  time : ℝ
  envTime : ℝ
  logThis : ℕ → Bool
  fc : ℕ → FC
  msgs : ℕ → List (List Char × List (List Char))
  trace : List Ev

/-- How a call ends. -/
inductive Res where
  | ok (s : Sim)
  | thrown
  | bad

/-- The next thing to do, if the call went well. -/
def Res.bind (r : Res) (f : Sim → Res) : Res :=
  match r with
  | .ok s => f s
  | .thrown => .thrown
  | .bad => .bad

/-- The order of the loops of `Initialize` and `StepFinalize` (core/FrOffshoreSystem.cpp:513-535, 583-605). -/
def order : List Cat := [.prePhysics, .bodies, .links, .constraints, .actuators, .feaMeshes]

namespace Sim

/-- One more event. -/
def emit (s : Sim) (l : List Ev) : Sim := { s with trace := s.trace ++ l }

/-- What the visit of the object `x` of the container `c` goes through: a body then its forces and its nodes (core/body/FrBody.cpp:293-303, 312-329). -/
def visit (s : Sys) (c : Cat) (x : ℕ) : List ℕ := if c = .bodies then x :: (s.forces x ++ s.nodes x) else [x]

/-- `Initialize` of one object. -/
def initOne (P : Prog) (c : Cat) (x : ℕ) (s : Sim) : Res :=
  let s1 := s.emit ((visit s.sys c x).map fun y => .init (.obj y))
  match runAll P.objs s1.sys (P.onInit x s1.sys) with
  | .ok y => .ok { s1 with sys := y }
  | .thrown _ => .thrown
  | .bad => .bad

/-- The loop over a container. -/
def initList (P : Prog) (c : Cat) : List ℕ → Sim → Res
  | [], s => .ok s
  | x :: l, s => (s.initOne P c x).bind (initList P c l)

/-- The loops over the containers (core/FrOffshoreSystem.cpp:513-535). -/
def initCats (P : Prog) : List Cat → Sim → Res
  | [], s => .ok s
  | c :: cs, s => (s.initList P c (s.sys.lst c)).bind (initCats P cs)

/-- The CSV file of a message (logging/FrLogManager.cpp:204-210): the path of the object, its type name and the name of the message. -/
def file (P : Prog) (x : ℕ) (name : List Char) : List Char := P.objs.path x ++ P.typeName x ++ name ++ ".csv".toList

/-- The preparation of the log of one object (logging/FrLogManager.cpp:194-219): its messages are made, and every message it has gets a serializer. Nothing is serialized yet. -/
def logInitOne (P : Prog) (s : Sim) (x : ℕ) : Sim :=
  if s.logThis x then
    { s with
      msgs := set s.msgs x ((s.msgs x ++ (P.messages x).map fun n => (n, [])).map fun (m : List Char × List (List Char)) => (m.1, m.2 ++ [file P x m.1]))
      trace := s.trace ++ [.logInit x] }
  else s

/-- `FrLogManager::Initialize` (logging/FrLogManager.cpp:191-226). -/
def logInit (P : Prog) (s : Sim) : Sim := s.sys.logged.foldl (logInitOne P) s

/-- `Initialize` (core/FrOffshoreSystem.cpp:502-546). With smooth contacts the update of Chrono tells the time to the environment (core/FrOffshoreSystem.cpp:52-63, 487-490). -/
def start (P : Prog) (s : Sim) : Res :=
  if s.inited then .ok s
  else ((s.emit [.init .env]).initCats P order).bind fun s1 =>
    .ok { ({ s1 with envTime := if s1.smooth then s1.time else s1.envTime } : Sim).logInit P with inited := true }

/-- `ForceInitialize` (core/FrOffshoreSystem.cpp:548-551). -/
def forceStart (P : Prog) (s : Sim) : Res := ({ s with inited := false } : Sim).start P

/-- The rows written for one object (logging/FrLoggable.cpp:29-32, 52-62): each message is sent to each of its serializers. -/
def rows (s : Sim) (x : ℕ) : List Ev := if s.logThis x then (s.msgs x).flatMap fun m => m.2.map .row else []

/-- `StepFinalize` (core/FrOffshoreSystem.cpp:579-608). -/
def stepFinalize (s : Sim) : Sim :=
  s.emit (Ev.fin .env :: ((order.flatMap fun c => (s.sys.lst c).flatMap (visit s.sys c)).map fun y => .fin (.obj y)) ++ s.sys.logged.flatMap s.rows)

/-- `AdvanceOneStep` and each step of `AdvanceTo`, `RunDynamics` (core/FrOffshoreSystem.cpp:997-1021). The system with smooth contacts ends its steps with `StepFinalize` (155-159) and tells the time to the environment;
that with non smooth contacts overrides nothing (core/FrOffshoreSystem.h:73-75). -/
def step (P : Prog) (h : ℝ) (s : Sim) : Res :=
  (s.start P).bind fun s1 =>
    let s2 := { s1 with time := s1.time + h }
    .ok (if s2.smooth then ({ s2 with envTime := s2.time } : Sim).stepFinalize else s2)

/-- `SetLogFrameConvention` of the log manager (logging/FrLogManager.cpp:233-237). -/
def setLogFC (s : Sim) (fc : FC) : Sim := { s with fc := fun x => if x ∈ s.sys.logged then fc else s.fc x }

/-- `SetSystemType` (core/FrOffshoreSystem.cpp:627-647) with `Clear` (1057-1068): a new Chrono system, whose time is zero. -/
def setSystemType (s : Sim) (smooth : Bool) : Sim := { s with sys := s.sys.clear, inited := false, smooth := smooth, time := 0 }

end Sim

/-- The constructor (core/FrOffshoreSystem.cpp:167-212, 1023-1039): only the world body, object `1`, which is not logged; logs are in the convention NWU (logging/FrLoggable.cpp:18-21). -/
def Sim.new (sys : Sys) (smooth : Bool) : Sim := ⟨sys, false, smooth, 0, 0, fun x => x ≠ 1, fun _ => .NWU, fun _ => [], []⟩

/-- The calls of a user. -/
inductive Call where
  | op (o : Op)
  | start
  | forceStart
  | step (h : ℝ)
  | logThis (x : ℕ) (b : Bool)
  | setLogFC (fc : FC)

/-- Their effects. -/
def Call.run (P : Prog) (s : Sim) : Call → Res
  | .op o => match o.run P.objs s.sys with
    | .ok y => .ok { s with sys := y }
    | .thrown _ => .thrown
    | .bad => .bad
  | .start => s.start P
  | .forceStart => s.forceStart P
  | .step h => s.step P h
  | .logThis x b => .ok { s with logThis := set s.logThis x b }
  | .setLogFC fc => .ok (s.setLogFC fc)

/-- A call that is well typed where it is made; the world body is not removed. -/
def Call.Sane (P : Prog) (s : Sim) : Call → Prop
  | .op o => (∃ p, Runs P.objs s.sys p ∧ o.Sane P.objs p) ∧ o ≠ .remove 1
  | _ => True

/-- A sequence of calls, all well typed and all returning normally. -/
inductive Calls (P : Prog) : Sim → List Call → Sim → Prop
  | nil (s) : Calls P s [] s
  | snoc {s s1 s2 : Sim} {cs : List Call} (c : Call) : Calls P s cs s1 → c.Sane P s1 → c.run P s1 = .ok s2 → Calls P s (cs ++ [c]) s2

/-- A system as the constructor leaves it. -/
def Fresh (P : Prog) (s : Sim) : Prop := P.objs.kind 1 = .body ∧ ∃ y b, (Sys.init P.objs).add P.objs 1 = .ok y ∧ s = Sim.new y b

/-! ## Specification -/

/-- The rank of a container in the order of the loops. -/
def rank : Cat → ℕ
  | .prePhysics => 0
  | .bodies => 1
  | .links => 2
  | .constraints => 3
  | .actuators => 4
  | .feaMeshes => 5

/-- What the code expects of the initialization of an object `x` of the container `c`: it only makes well typed calls, removes nothing for good, leaves the containers up to `c` as they are (they are being read), puts
forces on bodies only if it comes before bodies, and only adds nodes. -/
def Tame (P : Prog) : Prop := ∀ x c s p s', Runs P.objs s p → p.here 1 → p.here x → (P.objs.kind x).cat = some c → runAll P.objs s (P.onInit x s) = .ok s' →
  ∃ p', Runs P.objs s' p' ∧ (∀ y, p.here y → p'.here y) ∧ (∀ c', rank c' ≤ rank c → s'.lst c' = s.lst c') ∧ (1 ≤ rank c → s'.forces = s.forces) ∧ ∀ b, ∃ e, s'.nodes b = s.nodes b ++ e

/-- The position of an object in a pass: the environment, then the containers; forces and nodes go with bodies. -/
def phase (O : Objs) : Who → ℕ
  | .env => 0
  | .obj x => match (O.kind x).cat with
    | some c => rank c + 1
    | none => rank .bodies + 1

end Frydom.Core.Simulation
