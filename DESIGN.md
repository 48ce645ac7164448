# DESIGN — a Lean 4 model of FRyDoM

## 1. What is modelled, and how

The code base is a C++ layer on top of Chrono (multibody), Eigen/MathUtils (vectors) and boost. We model FRyDoM's own
logic: function objects with their caches, frame/rotation algebra, inertia, recorders, polygons/planes/meshes, waves,
hydrodynamic force laws, and bookkeeping state machines. Conventions shared by all modules:

* `double` is modelled by `ℝ` (Mathlib). Rounding, overflow and signed zeros are **not** modelled. Where the code can
  produce a non-finite number (division by zero, `pow(0,-1)`, `acos(2)`, ...) and the property depends on it, the model
  uses `Option ℝ` with `none` = "NaN/Inf" and strict propagation.
* Undefined behaviour (null dereference, read of an uninitialised variable, out-of-range index) is a distinct
  outcome (`none`/`UB`) in the model, never silently totalised.
* `assert` is modelled as a precondition that the theorem states, or as a distinct outcome.
* Chrono/Eigen/boost/MathUtils operations that FRyDoM calls (quaternion product, cross product, circular buffer,
  `Normalize_0_2PI` ...) are modelled by their documented mathematical meaning; they are part of the trusted base.
* Every definition cites the file and lines in /repo it models.
* Theorems about properties live in `Props*.lean` files (one per area), models in `Model*.lean`, helper lemmas apart.

## 2. Trusted base

Lean's kernel; the axioms `propext`, `Classical.choice`, `Quot.sound` (Mathlib's reals need all three); the reading of
the C++ (citations beside each definition); the stated behaviour of Chrono/Eigen/boost/MathUtils primitives, in particular:
Chrono quaternion/frame formulas; `ChBodyAuxRef` (the reference frame follows the COG frame by a fixed offset only at `UpdateAfterMove`/`Update`,
the orientation and its quaternion derivative are stored independently, `SetWvel_par` writes the derivative, `PointSpeedLocalToParent` uses it; `SetWacc_par`/`GetWacc_par`/`PointAccelerationLocalToParent` the same with the second derivative; force accumulators in world axes; `UpdateForces` = accumulators + forces + weight; `ClampSpeed`, `ComputeGyro`); `ChBody::Update` updates the forces of the body; boost `circular_buffer` (push_front overwrites the oldest); MathUtils `linspace`
(first/last included), `Normalize_*` (`Waves.AirySetup` covers both the by-reference and the by-value reading), default
construction of MathUtils vectors (zero); Chrono `ChVector::Normalize` (zero becomes the x axis), `ChMesh` containers, `ChLinkMateGeneric` (frames relative to the COG frame of a body), `SetAsCircularSection`,
`ChElementBeamEuler` (end values of the interpolation, rest length = initial distance of the nodes); MathUtils `Interp1dLinear` (linear interpolation with range assertion), `LookupTable2d` (any function), `MatrixMN::Inverse`
(the inverse when there is one); the iteration order of an `unordered_map` is the same as long as it is not modified; OpenMesh `calc_face_centroid` (mean of the corners); Chrono's solver vectors (functions of the index); Eigen `normalize` of a zero vector (unchanged); GeographicLib (`Forward`/`Reverse` inverse of each other); the `date` library (a zone is an offset as a function of UTC; `make_zoned` throws on missing or ambiguous local times); `std::tgamma` = Γ; Chrono links (`GetLinkRelativeCoords` relative to the second body given; a lock mask sets the locked coordinates of the relative frame to zero; `ChLinkLockPointLine` along the x axis of its frame; `ChLinkMotorLinear::GetMotorPos` the x coordinate of the first frame in the second; `ChLinkMotorRotationAngle` the turn of the first frame about the z axis of the second); Chrono draws the assets of a body in its reference frame; Chrono's default gravity is 9.8 along -y; nlohmann json (`parse` of a failed stream throws, indexing and conversions as in `Utils.Config`); POSIX `mkdir`; `strftime`; the Irrlicht viewer advances the system by its time step once per frame; Irrlicht `rotateXYBy`/`rotateXZBy` (anticlockwise, degrees), `getAngle` (clockwise, [0, 360)), `normalize` (zero unchanged); `ChForce` application points are written only by `ChForce`'s own setters and its `UpdateState`; `assert`s hold or
the outcome is explicit. The axioms each theorem uses are at most those three (checked with `#print axioms`).

Not modelled: the HDF5 library (C175: a file is a partial function of paths), YAML input-output, the JSON library beyond C158, C159, C173 (documented behaviour), loggers (C168: the numbers of a JSON sea state are read back exactly), the random generator (any draws are allowed in the theorems), Irrlicht, Chrono's time
integrator and solvers, floating-point rounding, `FrUnitQuaternion::RotateInParent/InFrame` aliasing, CUDA/parallel paths.

## 3. Per-property plan

| property | model | proof |
|---|---|---|
| C01 | `Func`: tree shapes `Sh`, per-node mutable cache `St s`, `eval` threads the state exactly as `Eval` does | refinement: cache invariant preserved by every query/copy/operator; induction over the build-and-query history |
| C02 | pure denotation `den : Sh → Jet` of C01 | induction over the tree: `HasDerivAt` for value and first derivative (partial: excludes `asinh` and tanh ramp, whose code is wrong; negations proved) |
| C03 | operators as constructors cloning their operands | corollary of C01 |
| C04 | `clone` | holds for zero offset; negation proved for nonzero offset |
| C05 | clamp nodes | pure law for all inputs; history law with negation for "copied cache at the clamp abscissa" |
| C06 | `SetByTwoPoints` builds clamp trees | real analysis on the denotation |
| C07 | setters on the root object | negations with concrete witnesses, positive result when never evaluated before |
| C08 | saturate | case analysis; negation for one-sided saturation |
| C09 | tanh ramp state machine | negation witness; positive part for monotone histories |
| C10–C18 | `Geom`: vectors, quaternions, frames over ℝ | algebra (`ring`, `nlinarith`), trig identities for Euler angles; negations for C15, part of C16, C17 |
| C19–C20 | `Inertia` | sum over lists of point masses, induction |
| C21–C22 | `Recorder` | refinement to piecewise-linear signal by induction on history |
| C23–C24 | `Polygon`, `Plane` | edge integrals are exact, triangle = iterated integral, additivity |
| C25–C26 | `Waves` | monotonicity + Newton convergence for convex function; `HasDerivAt` |
| C27 | `DofMask` | induction over op sequences |
| C28 | `Statics` | state machine over maps, induction over histories |
| C29–C31 | `Damping` | quadratic forms, parity |
| C32 | `PolarTable` | list lemmas |

Properties appended later are described in section 4.

## 4. Log of later additions

| property | model | proof |
|---|---|---|
| C33 | `Geom`: `ProjectToXYPlane` and companions | algebra on quaternions; counterexample |
| C34 | `Mesh.Plane` : intersection and projection | algebra |
| C35 | `Waves.Airy` (elevation, velocity, acceleration, pressure as finite sums), spec `LinearWaveFlow` | `HasDerivAt` of each component, sums; bound for wave numbers with a residual |
| C36 | NED entry points of the same | partial: false off y = 0 for NED (counterexamples) |
| C37 | `Waves.AiryOptim`: caches as state, histories of `Update`/`StepFinalize` | induction over histories; stale-cache counterexamples |
| C38–C39 | `Waves.AirySetup`: directions, period setter, `Initialize`, stretching selection | modular arithmetic, C25; counterexamples |
| C40 | `Waves.Spectrum` | calculus (`exp` inequality for the peak, improper integral) |
| C41–C42 | `Waves.Amplitudes` | list lemmas, telescoping sums; out-of-bounds = `none` |
| C43 | `Waves.Spreading` | Beta integral by change of variable, Gamma duplication |
| C44 | `Waves.Bandwidth`: the loop as `whileLoop`, outcome loops/throws/returns | loop invariant + Lipschitz argument; `Waves.BandwidthExists`: JONSWAP and Pierson-Moskowitz densities are Lipschitz and cross the threshold on both sides of the peak (C44), hence initialisation without a band succeeds (`Waves.IrregularDefault`, C165) |
| C45–C46 | `Link.Revolute`: `Update` as a state machine, Chrono's angle-axis extraction with its dead band | induction over histories, arithmetic modulo whole turns; counterexample |
| C47–C49 | `Link.Link`: `GenerateCache`, reaction getters, prismatic link; spec: world wrenches, motions as differentiable curves | algebra on rotations; `HasDerivAt` of rotated vectors; counterexamples |
| C50–C51 | `Core.Body`: a `ChBodyAuxRef` (COG frame, quaternion derivative, COG in reference, reference position and velocity) with every FRyDoM setter/getter; `Spinning b w` = rigid motion | rotation algebra; induction over call histories; counterexamples for the two wrong calls |
| C52–C53 | `Core.Force`: `FrForce` setters and getters on a body, limits; spec `IsLoad` = equipollence about every point | algebra; clamp lemma |
| C54–C55 | `Core.Node`: Chrono marker (relative frame, cached absolute frame and velocity) under `FrNode`; histories mix body and node calls | invariant `Attached` by induction; counterexamples |
| C56 | `Core.MassBody`: mass, COG and inertia of a body; spec: point masses moving with the velocities of the body | induction over the list of masses |
| C57–C59 | `Core.Registry`: containers of the system and of Chrono, forces and nodes of bodies, log manager, used paths; outcomes ok/thrown/undefined; spec `Spec` = which objects are here and what hangs on bodies | invariant by induction over histories; unique decoding of slash-separated paths; defects for all reachable states |
| C29–C31 | `Hydro.Damping`: linear (6x6), quadratic and manoeuvring damping on the body of `Core.Body` and force of `Core.Force`; spec: mechanical power of a load on a rigid body relative to the fluid | algebra of quadratic forms; parity of exponents; counterexamples |
| C60–C63 | `Env.Flow`: uniform field setters, relative velocity, ramp as state machine, fluid at a point, depth | trigonometry, induction over histories, counterexamples |
| C32 | `Env.PolarTable`: completion loop with its unsigned index, double-row test, conversions, sort as any sorted permutation; spec `meaning` = (direction of the flow, coefficients) | induction on the loop, permutations; counterexamples |
| C64–C65 | `Env.FlowForce`: Cardan yaw of the body, polar-table and standard loads on `Core.Body`/`Core.Force`; spec: horizontal axes of the ship, `IsLoad` | `arg`/`arccos` lemmas, rotation algebra |
| C66–C69 | `Mesh.Clipper`: the mesh as numbered vertices and a list of triangles, the clipping loop over a growing list of faces, projection, the two surfaces (plane, waves by dichotomy). OpenMesh is external: `split`, handles and circulators are modelled by their contract, and what it leaves open (`Choices`) is quantified over. The initial distMin (1e10) is taken as infinite | loop invariant `Inv` and a measure (`ClipperInv`): termination with fuel existentially quantified and independent of it; geometry of triangle splits (`ClipperProps`) |
| C70–C76 | `Mesh.Integrals`: face integrals, boundary polygons (through `Mesh.Polygon`, with its uninitialised accumulators), volume, centre, area, plain and shell inertia (through `Inertia.Model`), box, bounding box, motions. Trusted from OpenMesh: unit normals, first half-edge (any), boundary loops closed and half-edges paired (`IsBoundary`). Specs: interval integrals over the image of the unit simplex (`surfInt`), signed tetrahedra from any point (`volInt`) | polynomial integration, discrete Stokes (`closedUp_sum`: antisymmetric edge sums cancel), hence the divergence theorem for each monomial; change of frame of the polygons; counterexamples |
| C77 | `Hydro.HydroMesh`: placing of the mesh (rotation, vertical translation), clipping plane at the tide, waves, offset of the import, on `Mesh.Clipper` and `Core.Body`; spec: points of the body in the world | corollaries of C66, C67 through the affine placement; exact error of the offset |
| C78–C79 | `Hydro.Buoyancy`: force, torque, centre of buoyancy, load on the body (`Core.Force`); spec: `pressureForce`, `pressureMoment` (integrals over the triangles), enclosed volume | divergence theorem of C71–C72; bounds; counterexamples |
| C80 | `Hydro.Hydrostatics`: stiffness matrix setters/getters, `ComputeProperties` with its accumulating attributes, on the boundary polygons of `Mesh.Integrals`; spec: `IsHydrostatic` (integrals over the water plane as oriented loops), `Extent` | frame of horizontal polygons, fan sums; induction over calls; counterexamples |
| C81–C82 | `Hydro.EqFrame`: the equilibrium frame on `Core.Node` and `Core.Body` (construction, velocities, `Compute`); spec: level frame, heading, `MovedFor` (uniform motion) | rotations about the vertical commute; induction over the times; counterexamples |
| C83 | `Hydro.LinearHydrostatics`: `Compute`, stiffness setters, on `Hydro.EqFrame`, `Hydro.Hydrostatics`; spec: `Displaced`, `IsLoad` | Cardan round trip (C13), C80 |
| C84 | `Hydro.EqFrameVariants`: `FrEqFrameSpringDamping` on `Hydro.EqFrame`; spec: limits in Mathlib's `Tendsto`, `Steady` motion | second-order linear recurrence with roots inside the unit circle; counterexample for the heading |
| C85 | `Hydro.MeanMotion`: `FrEqFrameMeanMotion` on `Recorder`; spec: `UniformNode`, `MovedFor` | recorder of a constant stores the constant (invariant), induction over the times; memory content of the uninitialised field as a parameter |
| C86–C87 | `Hydro.Equilibrium`: the two Newton loops as terminating recursions, the clipped mesh (`clip`) and the linear solver (`lu`) as parameters, on `Hydro.Hydrostatics`, `Core.Body`; spec: `Afloat`, `netMoment` (moment of weight and buoyancy in the world), `Raised` | induction on the remaining iterations; a flat mesh has no volume (so the scales are positive); exact Newton steps for wall-sided hulls; `Hydro.EquilibriumConv`: mean value theorem on the volume, contraction of the relaxed Newton step, budgets of iterations, an oscillating example; counterexamples; examples: a prism, a truncated pyramid, a diamond |
| C88–C90 | `Cable.Properties`: accessors of the properties, time and length of a cable; spec: `Describes` (a round cable), `paidOut` (length from the history) | algebra; induction over histories |
| C91–C92 | `Cable.Catenary`: every accessor of the catenary line and the forces, on `Core.Node`, `Core.Force`; spec: `IsCable` (differential equations of an elastic cable), `IsLoad`, `integral3` | derivatives of the closed forms (logarithm and norm); fundamental theorem of calculus; induction over histories |
| C93 | `Cable.CatenaryLength`: the polygon of `GetStrainedLength`; spec: integral of 1 + \|t\|/EA | monotonicity of the projected position, triangle inequality |
| C94 | `Cable.CatenaryJacobian`: the matrix entry by entry; spec: `HasDeriv3` along every direction, definiteness | chain rule; the quadratic form has a positive derivative along the line |
| C95 | `Cable.CatenarySolve`: both loops of the solver, the inversion as a parameter, the inner loop as `Nat.find` | induction on the remaining iterations |
| C96–C97 | `Cable.CatenaryUnique`, `Cable.CatenaryExists` | the work of a difference of tensions increases along the line; existence by minimising the complementary energy of the line over the tensions (coercive and continuous; its derivative along an axis is the residual, by dominated differentiation under the integral and the fundamental theorem off a countable set); counterexamples for vertical lines |
| C98–C101 | `Hydro.Morison`: single and composite elements as a tree, update, initialization, constructors, on `Core.Node`, `Core.Force`; waves, current and Chrono's accelerations are parameters; the uninitialised flag is a parameter; spec: documented law along the axes, `leaves`, moments about every point | mutual induction over the tree; rotation algebra; arithmetic sums for the discretisation; counterexamples |
| C102–C103 | `Hydro.ITTC`: Reynolds number, friction line with its pole as an outcome, resistance, load; spec: `ittc57` | monotonicity of e^x/x; limit at the pole |
| C104 | `Seakeeping.Trapz`: `TrapzLoc` on any normed space; spec: `Interpolates` and Mathlib's interval integral | loop to sum by induction; additivity of integrals; Lipschitz bounds |
| C105–C108 | `Seakeeping.Mask`, `Database`: masks, loading of the tables, grids, mapper with absent keys; spec: `rank` (place among the active ones), inverse maps | fold invariants; floor arithmetic; reverse induction over calls |
| C109 | `Seakeeping.Interp`: interpolators of the coefficients; spec: bilinear combination in a cell | uniqueness of the lower bound in an increasing grid |
| C110–C112 | `Seakeeping.Excitation`: initialization, sums over waves and modes, application on `Core.Force`, on `Waves.Airy`; spec: linear response in frame axes | linearity of sums and rotations; counterexamples |
| C113–C114 | `Seakeeping.Drift`; spec: `meanDrift`, derivative of the phase | algebra, derivative; counterexamples |
| C115–C118 | `Seakeeping.Radiation`: recorders (`Recorder`), convolution, sizes with wrap-around, inertia part; spec: `pastLoad` on recorded history | recorder invariants C21, C22; C104; counterexamples |
| C119–C120 | `Seakeeping.GeneralizedMass`: block matrices of any number of bodies, solver vectors; spec: `Motion` equations | matrix inverse by blocks; fold invariants; counterexamples |
| C121 | `Seakeeping.NonlinearFK`: pressure forces on a clipped mesh; spec: `pushOn` at centroids | divergence sums over closed meshes as in C70–C79 |
| C122–C123 | `Env.Ocean`: tide, free surface, sea bed, depth, fluid at a point, numbers; spec: histories of events | invariant over histories; arithmetic; counterexamples |
| C124 | `Env.Geographic`: conversions, magnetic field, compass, on a parameter `Lib` for GeographicLib; spec: `Lib.Good` | algebra; trigonometry |
| C125–C126 | `Env.Time`: both clocks in integer milliseconds, zones as offsets; spec: `Zone.Shows` | floor arithmetic; uniqueness of local times |
| C127 | `Core.Solids`: tensors of the makers; spec: `over` (Lebesgue integrals over a solid), `Homogeneous` | polar coordinates, Fubini by slices, symmetries by measure-preserving maps |
| C128 | `Cable.Buoy`: draft, volume, hydrostatic force, update order; spec: `wetBall`, `IsLoad` | slices of C127; intermediate values and strict monotonicity; induction over updates |
| C129 | `Core.Assembly`; spec: `inWorld` point masses seen from the master, counts over histories | induction with C19; permutations |
| C130–C132 | `Link.Constraint`: geometrical entities, reactions, frame of the point-on-line; spec: `seenFrom`, `InPlane`, `OnAxis`, `dist2`, `Wrench.Same` | vector algebra, rotations as isometries; counterexamples |
| C133–C136 | `Link.Actuator`: motor frames and commands, loads, life cycle, joint masks; spec: axes in the world, `Wrench.momentAbout`, `Coaxial`, `SameAxes`, histories | rotation algebra; induction over histories |
| C137 | `Seakeeping.ConstraintCoupling` on top of `MassModel`; spec: `Motion` (coupled equations), `reaction` | uniqueness of the accelerations (C119), block algebra |
| C138, C139 | `Cable.LineAsset`: sampled tensions, loop over the abscissas, drawing; spec: `Cuts`, `joined` | triangle inequality and convexity; induction on the loop; counterexamples |
| C140, C141 | `Cable.Dynamic`, `Cable.DynamicProps`: location of an abscissa, target length | floor algebra; counterexamples |
| C142–C144 | `Cable.DynamicMesh`: creation of the mesh, hinges, section; spec: points of the catenary line, orthonormal triads, node of the body in the world | induction on the loop, algebra of the vertical plane, rotations as isometries |
| C145 | `Cable.DynamicSystem` on top of `Core.Registry`; spec: `Runs` histories | composition of registry calls |
| C146 | `Link.LockedBody`: the two nodes and the DOF mask link of a locked body; spec: `travel`, points and axes of the body in the world | relative frame of the nodes (C54), quaternion algebra |
| C147–C149 | `Core.Simulation`, `SimulationProps`, `SimulationLogs` on top of `Core.Registry`: initialization pass, steps, log manager, as a trace of events; spec: counts and order in the trace, `phase`, `Spec` of the registry | induction over histories of calls; invariants of the pass; counting rows |
| C150, C151 | `Asset.Grid`, `Asset.PolarGrid`: loops building vertices and faces; spec: points of the plane in triangles, rectangle, regular polygon | arithmetic of indices; barycentric coordinates; floor of the step; trigonometry of the rays; counterexamples |
| C152 | `Asset.GridLife`: settings, initialization, steps; spec: histories, free surface above a vertex | induction over histories |
| C153 | `Asset.Owner`: containers of assets and shapes; spec: shapes asked for by a list of calls, `History` | invariant over histories |
| C154 | `Asset.Glyphs` on top of `Core.Force`, `Core.Node`; spec: vectors and frames in the world | rotation algebra, C54 history |
| C155, C156 | `Core.Settings`: settings of the Chrono system, the loop of `FrIrrApp::Run`; spec: last value asked for by a list of calls, start plus a number of steps | induction over histories; floor of the number of steps |
| C157 | `Utils.Camera`: events, gestures, frames; spec: distance, line of sight, `Idle` | induction over histories, trigonometry, symbolic run of each gesture |
| C158, C159 | `Utils.Config`: configuration, mkdir, date folder; spec: `Declares`, `Nearest`, file trees | case analysis, induction on the path, injectivity of padded digits |
| C160 | `Core.BodyAccel`: second derivatives of a body; spec: `Moving` (the stored numbers are derivatives of each other), `rigidAcc` | derivatives of quaternion products, polynomial identities |
| C161–C164 | `Core.BodyDynamics`: total loads, removed gravity, speed limits, position step, loads for the solver; spec: loads and moments, `pendingRemovals`, derivatives with respect to the step, momentum | induction over histories and steps, Rodrigues formula, product rule |
| C165–C168 | `Waves.IrregularSetup`: setters, Initialize, phases, file of an irregular field on top of `Waves.Airy`, `Spectrum`, `Amplitudes`; spec: `IsSpaced`, last band/direction asked for by a list of calls, `Ready` histories, `InBounds` | invariant over histories of calls; tables of amplitudes; counterexamples |
| C169, C170 | `Waves.FreeSurface`: makers, show, Initialize, Update over `Waves.Airy` and `Waves.IrregularSetup`; spec: `lastTime`, `NoRamp`, `Still` over lists of calls | induction over histories, C25, C38 |
| C171, C172 | `Geom.Compare`: comparisons of quaternions and frames, axis/angle, in-place operations over `Geom.Model`; spec: distance between images of vectors, `turnAbout` (Rodrigues), `RotOp.expected` (composition of maps) | polynomial identities, induction over the operations |
| C173 | `Env.PolarFile`: JSON values, indexing and conversions with their exceptions, the two loaders, composition with `Env.PolarTable`; spec: `Declares`, `Describes` (field by field), `Square` | case analysis of outcomes, induction over arrays and rows |
| C174 | `Core.Relax`: `Relax`, residual over `Core.BodyAccel`, the ramp of `Core.Statics`, `Func` and `Env.Flow`; spec: `AtRest`, `SamePlace` (all points) | rigid body lemmas of C51, sums over lists, C06, C61 |
| C175 | `Seakeeping.H5`: a file as a partial function of paths, the readers with their failures, the masks and products of C106, the two loops over the bodies; spec: `Entry`, `Triple`, `Masks`, `HeadIn`, `LoadedIn`, `DriftIn` (numbers of the file at the paths of the format), `WellFormed` | inversion of the chain of readers, induction over bodies, degrees of freedom and columns; success on `WellFormed` files by the same inductions; a concrete file |
| C176 | `Core.LogColumns`: the messages as lists of fields (name, unit, getter of the models of C47-C54, C81, C134, C160), the convention of a logged object over histories; spec: `Shows` (the only column of that name), `HasVel`, `HasAngVel`, `AreAngles`, `lastFC` | C160, C54, C52, C47, C48, C13 for the getters; induction over histories |
| C177 | `Core/NodeAxes`: `FrNode::Set`, `RotateAround*`, `TranslateIn*` along a direction, angular velocity getters over the node model of C54; spec: axes read back, Rodrigues' formula, length of the move | C33 for the axes, quaternion algebra; the getters computed to be zero |
| C178 | `Waves/AmplitudeRange`: the two range overloads of `GetWaveAmplitudes`; spec: energy of a cell, trapezoidal sum | list and finite-sum induction over the even cut, C41/C42 for the list overloads |
| C179 | `Func/Output`: the loop of `WriteToGnuPlotFile` as a big-step relation over the stateful objects of C01 (any evaluation order), estimates, `GetRepr`, copy given to Chrono; spec: rows `xmin + k dx`, derivatives of C02 | rule induction, Archimedean argument for the end, mean value theorem |
| C180 | `Core/LogColumnsMore`: the fields of constraints, catenary lines, dynamic cables; spec: wrenches about every point, loads on the bodies, chain of elements | composition of C131, C92, C93, C140; polygon inequality |
| C181 | `Mesh/Boundary`, `Mesh/BoundaryCache`: half-edge tables of OpenMesh with its guarantees as a hypothesis, the two loops of the circulation with their tags, the cache as a state machine; spec: rounds of half-edges, permutation of the boundary, current mesh of a history | orbits of an injective map on a finite set (minimal period), invariant of the outer loop, Stokes on the edges |
| C182 | `Link/ConstraintInit`: constructors, distances and `Initialize` of the constraints, what Chrono attaches to each body and imposes as an assumption; spec: axes and points of nodes carried by their bodies, distance to an axis | attached points and directions are the nodes wherever the bodies go; kinds one by one; the false clauses by concrete places |
| C183 | Hydro/StiffnessDerivative (lemmas Hydro/WaterlineStrip): the load of the sea at rest (max(-z,0) integrated over the whole displaced hull) and of the weight, defined apart from the code; the wetted mesh closed by its lids gives an affine volume, the strip between the wetted mesh and the sea is of second order (Cauchy-Schwarz on the strip), so the derivative is that of the lids, equal to minus the matrix of C80 |
| C184 | Hydro/Metacentre: GetMetacentricHeight on the clipped mesh; spec: righting moment per radian of the load of C183 about the centroid of the water plane | C183 at the centroid, C80, parallel axes; turning the mesh about the vertical for the heading |
| C185 | Hydro/LinearTangent: linearHydrostatic (C83) with the stiffness of C80, maker with a mesh; spec: pressure of the sea on the whole hull in the world, about the centre of gravity (C183) | C83 for the linear load, C183 about the centre of gravity, invariance of the sea by horizontal shift and turn, o(s) kept by turns; Hydro/LinearHeading: clipped mesh of the body at a heading (yaw), second moment of the turned water plane (C185_heading_wrong) |
| C186 | Link/SpringDamper: spring-damper getters of FrLink for nodes and bodies, GetLinkPower of FrLink, FrPrismaticLink, FrRevoluteLink; spec: the wrench Chrono applies for C_force, C_torque, in the world, and its power on each rigid body | transport of wrenches (as C47), equivalence with conditions on the relative frame; the relative velocities are derivatives of the relative frame of two moving nodes |
| C187 | Waves/SeaEnergy, SeaSpectrum, SeaPhases: elevation of the irregular field through `Update` at every instant (model of C25/C35); spec: limit of (1/T)∫₀ᵀ; integral of the density; expectation over independent uniform phases (Mathlib measure theory) | products of sinusoids have bounded primitives; almost-periodic mean along the line where two directions part (defect); midpoint rule for a Lipschitz density; independence of the phases kills the cross terms |
| C188 | Waves/SeaResponse, Seakeeping/ExcitationStatistics: velocity and pressure of the irregular field, linear excitation force, through `Update` at every instant; spec: depth profiles of linear theory (exp, cosh/sinh, cosh/cosh), components of the load along the axes of the frame, limit of (1/T)∫₀ᵀ | each quantity is the ramp times a sum of sinusoids (forms from C35/C110), then the bounded primitives of C187 |
| C189 | Hydro/DatabaseHydrostatics: readStiffness (C106), SetStiffnessMatrix and Compute (C83) composed; spec: -K x, six displacements, axes of the world for the force and of the body for the moments | C83 with the upper triangle; uniqueness of the load for the defect |
| C190 | Seakeeping/RadiationEnergy: the model of C115 run for any number of updates (`updates`), work of its loads on the perturbation velocities; spec: power of a torsor, symmetric non negative damping forms | contents of a recorder sampled exactly at its step (induction), closed form of the trapezoidal sum, a causal cosine sum is half of two squares (induction); one body with a memory of four values for the defect |
| C191 | Hydro/HydrostaticEnergy (lemmas in DepthDerivative, cases in EnergyCases): the force of C78 along every motion (`Moving`, C160) of a body with its hull; spec: part of the hull under the sea (`Wetted`), energy of the displaced water and of the body | the energy is -ρg/2 times the flux of the squared depth through the whole hull (divergence theorem on the closed mesh); derivative of the integral of the squared positive part by a squeeze; then the power of C78's load; energy by a null derivative. Met by a cone heaving through the surface and by a sinking box |
| C192 | Mesh/ClipIntegrals (lemmas in TriangleCut), Hydro/ClippedLoads (cases in ClippedCases): the clipper of C66-C69 followed by the force of C78; spec: surface integrals (`simplex`, `surfInt`, `flux`) of continuous functions, load of the sea on the whole hull (`seaForce`, `seaMoment`), `seaEnergy` | integral over a triangle independent of the order of its corners (Fubini on the unit triangle) and additive when an edge is cut; invariant of the clipping (`Shares`) by induction over its steps; on the band within the threshold the pressure is bounded; power as C191 |
| C193 | Waves/EnergyLimit, Waves/HeightLimit: `getWaveAmplitudes`, `getWaveAmplitudesRange(2)` (C41, C178), the initialised irregular sea (C165, C187); spec: the Lebesgue integral of the density over the band, ε–N limits | sum over cells = trapezoidal rule plus half a spacing at both ends; uniform continuity on the band; explicit primitive of the standard spectra; cos2s normalised (C43); mean square by C187 |
| C194 | Cable/CatenaryEnergy, Cable/CatenaryBodies: `tension`, `position`, `residual` (C91), `startForce`, `endForce` (C92), body motion (C160) and equations (C164); spec: `storedEnergy` = integral of strain energy and weight times height | stored energy = constant + end heights − complementary energy (by parts along the line); the solved tension minimises the convex complementary energy, which gives both bounds; squeeze for the derivative (no differentiability of the tension assumed); power of a pull = product with node velocity; a mass oscillating on a line as example |
| C195 | Hydro/PassiveBody, Hydro/PassiveCases: `fbLoadForces` (C164) with any list of loads, `startForce`/`endForce` (C194), `computePlaneForce` (C191), `linearCompute` (C29), `quadCompute` (C30) | the loads of a list act as their sum; the power of the sum is the sum of the powers; each conservative load takes what it stores (C191, C194); monotone by the sign of the derivative. Example: a box under water, hung from an elastic line, that comes to rest under linear damping |
| C196 | Link/SpringEnergy, Hydro/LinkedBodies: `Prismatic.update`, `Revolute.update` (C45, C49), the loads and reactions returned for the bodies (C47, C186), `fbLoadForces` (C164, C195) | power of a wrench reduced to any point, so the power of the loads is the product of the load of the link with the relative rates; rates allowed by the joint from the uniqueness of derivatives; work by the fundamental theorem; bodies by C195. Examples: a spring turned by a right angle; two masses on a spring that fall and oscillate |
| C197 | Hydro/Momentum: `fbLoadForces` (C164), `getForceInWorld`, `getTorqueInWorldAtPointInWorld` (C52), the loads and reactions of a link (C47, C186, C196) | derivative of a turned vector for the angular momentum; the gyroscopic torque cancels the turning of the inertia; opposite loads of a link by C47 and C186; constants by a zero derivative. Examples: the two falling masses of C196, the moment of one of them about a point |
| C198 | Hydro/MomentumLine: `FrCatenaryForce::Compute` (C92), `computePlaneForce` (C78), `fbLoadForces` (C164, C197) | both pulls have opposite horizontal parts; from the closed form of the line, the ends of a line in equilibrium lie in the vertical plane of its horizontal tension, so the vertical moments cancel; the hydrostatic force has no horizontal part by the divergence theorem (C78); constants by C197. Examples: a drifting tug with an oscillating mass on its line; a corner of a cube under water |
