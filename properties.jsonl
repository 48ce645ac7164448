{"id": "C01", "title": "Function values do not depend on evaluation history", "statement": "For a function object built from variables, constants, arithmetic, composition, the elementary functions and powers, Get_y(x), Get_y_dx(x) and Get_y_dxdx(x) return the value determined by the expression and x alone, whatever queries (at whatever abscissae, in whatever order) were made before on the object or on the objects it was built from.", "quantifier": "every expression tree, every finite history of queries, every abscissa", "why_tests_cant": "The memoised (mutable) state of every node makes the result depend on an unbounded history of queries; tests replay one history.", "anchors": ["src/frydom/core/math/functions/FrFunctionBase.cpp: Get_y/Get_y_dx/Get_y_dxdx, Fr*Function::Eval, copy constructors", "src/frydom/core/math/functions/FrFunctionBase.h: IsEval, c_x", "src/frydom/core/math/functions/lib/*.cpp"]}
{"id": "C02", "title": "Reported derivatives are the true derivatives", "statement": "Wherever the three quantities are finite and the expression is smooth, Get_y_dx is the derivative of x -> Get_y(x) and Get_y_dxdx is the derivative of x -> Get_y_dx(x), for every composite of the provided functions.", "quantifier": "every expression tree and every abscissa in its domain of smoothness", "why_tests_cant": "The chain/product/quotient rules are composed to arbitrary depth; finite differences at sample points neither cover all trees nor distinguish a wrong term that vanishes at the samples.", "anchors": ["src/frydom/core/math/functions/FrFunctionBase.cpp: FrAddFunction/FrSubFunction/FrMulFunction/FrDivFunction/FrCompFunction::Eval", "src/frydom/core/math/functions/lib/FrTrigonometricFunctions.cpp", "src/frydom/core/math/functions/lib/FrHyperbolicTrigonometricFunctions.cpp", "src/frydom/core/math/functions/lib/FrPowFunction.cpp", "src/frydom/core/math/functions/lib/FrMiscFunctions.cpp"]}
{"id": "C03", "title": "Operators on functions are pointwise arithmetic", "statement": "f+g, f-g, f*g, f/g, -f, f<<g and their scalar variants return, at every x, the sum, difference, product, quotient, negation and composition of what f and g return at x (for operands without an x-offset).", "quantifier": "all function objects f, g, all scalars, all x", "why_tests_cant": "Universally quantified over operand trees and their cached states.", "anchors": ["src/frydom/core/math/functions/FrFunctionBase.cpp: operator+,-,*,/,<<"]}
{"id": "C04", "title": "Copies of a function behave like the original", "statement": "A copy of a function object (made implicitly by every operator and by constraints/motors that store a function) returns the same values as the original at every x.", "quantifier": "all function objects including those with a non-zero x-offset, all x", "why_tests_cant": "Quantifies over all objects, states and abscissae.", "anchors": ["src/frydom/core/math/functions/FrFunctionBase.cpp: FrFunctionBase(const FrFunctionBase&), Clone"]}
{"id": "C05", "title": "Clamped functions are frozen beyond the clamp abscissa", "statement": "clamp_after(f,c) equals f before c and is the constant f(c) with zero derivatives from c on; clamp_before symmetrically - whatever was evaluated before.", "quantifier": "all f, all c, all x, all evaluation histories", "why_tests_cant": "History and real-valued inputs are unbounded.", "anchors": ["src/frydom/core/math/functions/lib/FrClampFunction.cpp"]}
{"id": "C06", "title": "Linear and cosine ramps join their two points monotonically", "statement": "A linear or cosine ramp through (x0,y0),(x1,y1) with x0<x1 equals y0 for x<=x0, y1 for x>=x1, stays between y0 and y1, is monotone and continuous; the cosine ramp has continuous first derivative.", "quantifier": "all x0<x1, y0, y1, x", "why_tests_cant": "Real-valued parameters and abscissae.", "anchors": ["src/frydom/core/math/functions/ramp/FrLinearRampFunction.cpp", "src/frydom/core/math/functions/ramp/FrCosRampFunction.cpp"]}
{"id": "C07", "title": "Setters of a function object take effect", "statement": "After SetSlope/SetIntercept/Set/SetByTwoPoints/Add/+= on a function object, subsequent queries reflect the new parameters.", "quantifier": "all function objects, all parameter values, all earlier queries", "why_tests_cant": "Depends on the cached state left by earlier queries.", "anchors": ["src/frydom/core/math/functions/lib/FrLinearFunction.cpp", "src/frydom/core/math/functions/lib/FrPowFunction.cpp: Set", "src/frydom/core/math/functions/lib/FrClampFunction.cpp: Set", "src/frydom/core/math/functions/lib/FrPolynomialFunction.cpp: Add", "src/frydom/core/math/functions/FrFunctionBase.cpp: operator+="]}
{"id": "C08", "title": "Saturation keeps values in the requested band", "statement": "saturate_both(f,lo,hi) with lo<=hi always returns a value in [lo,hi] equal to f's value when it is inside; saturate_high(f,hi) returns min(f,hi) and saturate_low(f,lo) returns max(f,lo).", "quantifier": "all f, lo<=hi, x", "why_tests_cant": "Universally quantified over reals and functions.", "anchors": ["src/frydom/core/math/functions/lib/FrSaturateFunction.cpp", "src/frydom/core/math/functions/lib/FrSaturateFunction.h: m_ymin, m_ymax"]}
{"id": "C09", "title": "The tanh ramp is a function of x", "statement": "The tanh ramp returns the same value for the same x whatever was queried before, and passes through its two end points.", "quantifier": "all parameters, histories and x", "why_tests_cant": "History dependence through a partially refreshed cache.", "anchors": ["src/frydom/core/math/functions/ramp/FrTanhRampFunction.cpp"]}
{"id": "C10", "title": "Frame-convention conversion is an involutive isometry", "statement": "Converting a vector between NWU and NED twice gives it back; conversion preserves norms, dot products and cross products, so every quantity set in one convention is read back unchanged in that convention and correctly converted in the other.", "quantifier": "all vectors, both conventions", "why_tests_cant": "Real-valued inputs.", "anchors": ["src/frydom/core/math/FrVector.h: internal::SwapFrameConvention", "src/frydom/core/common/FrFrame.cpp: SetPosition, GetPosition, SetX..GetZ"]}
{"id": "C11", "title": "Rotations act as proper rotations and compose", "statement": "Rotating a vector with a rotation preserves lengths, dot and cross products in both conventions; (q1*q2) rotates as q1 after q2; the inverse undoes the rotation; the rotation matrix has orthonormal columns, determinant 1 and applies the same map.", "quantifier": "all unit quaternions, all vectors, both conventions", "why_tests_cant": "Quantifies over a continuum (SO(3) x R^3).", "anchors": ["src/frydom/core/common/FrRotation.cpp: operator*, GetInverse, GetRotationMatrix", "src/frydom/core/common/FrRotation.h: Rotate"]}
{"id": "C12", "title": "Axis-angle construction rotates about that axis by that angle", "statement": "FrRotation(axis, angle, fc) leaves the axis fixed and equals Rodrigues' formula; in NED the same rotation is described with swapped axis.", "quantifier": "all unit axes, all angles, both conventions", "why_tests_cant": "Continuum.", "anchors": ["src/frydom/core/common/FrRotation.cpp: Set(axis, angle)"]}
{"id": "C13", "title": "Cardan angles round-trip", "statement": "SetCardanAngles followed by GetCardanAngles returns the same roll, pitch, yaw whenever roll is in (-pi,pi], pitch in (-pi/2,pi/2) and yaw in (-pi,pi] (NWU) or [-pi,pi) (NED); conversely the angles returned for any rotation rebuild the same rotation.", "quantifier": "all angle triples / all unit quaternions", "why_tests_cant": "Continuum with gimbal-lock branches that sampling misses.", "anchors": ["src/frydom/core/common/FrRotation.cpp: SetEulerAngles_RADIANS, GetEulerAngles_RADIANS", "src/frydom/core/math/FrEulerAngles.inl: eul2quat_xyz, mat2eul_xyz"]}
{"id": "C14", "title": "Frames form a group acting on points", "statement": "Frame product is associative with the identity frame as unit; a frame times its inverse is the identity; GetPointPositionInParent and GetPointPositionInFrame are mutually inverse; (A*B) maps a point like A after B; relative transforms recompose to the other frame.", "quantifier": "all frames, points, conventions", "why_tests_cant": "Continuum.", "anchors": ["src/frydom/core/common/FrFrame.cpp: operator*, GetInverse, GetPointPositionInParent/InFrame, GetOtherFrameRelativeTransform_WRT_ThisFrame"]}
{"id": "C15", "title": "In-place frame product equals the binary product", "statement": "A *= T leaves A*T in A (as documented).", "quantifier": "all frames A, T", "why_tests_cant": "Non-commuting pairs are needed; tests with identity or commuting frames pass.", "anchors": ["src/frydom/core/common/FrFrame.cpp: operator*=", "src/frydom/core/common/FrFrame.h: operator*="]}
{"id": "C16", "title": "Local and parent rotations/translations of a frame", "statement": "RotateInFrame right-composes, RotateInParent left-composes, TranslateInFrame moves along own axes, TranslateInParent along the parent's axes; RotX/RotY/RotZ with localAxis agree with RotateInFrame about that axis and without it with RotateInParent, in both conventions; angles given in radians are used as radians.", "quantifier": "all frames, rotations, translations, angles", "why_tests_cant": "Continuum.", "anchors": ["src/frydom/core/common/FrFrame.cpp: RotateInFrame, RotateInParent, TranslateInFrame, TranslateInParent, RotX_RADIANS"]}
{"id": "C17", "title": "Projection on the horizontal plane gives a heading frame", "statement": "ProjectToXYPlane returns a frame at the same position whose z axis is the parent's z axis and whose x axis is the normalised horizontal projection of the frame's x axis.", "quantifier": "all frames whose x axis is not vertical", "why_tests_cant": "Only fails for combined roll and pitch.", "anchors": ["src/frydom/core/common/FrFrame.cpp: ProjectToXYPlane"]}
{"id": "C18", "title": "Torsor transport is consistent", "statement": "Moving the reduction point of a force/velocity torsor A->B->C gives the same moment as A->C; transporting back restores it; the result does not depend on the frame convention used.", "quantifier": "all torsors and points, both conventions", "why_tests_cant": "Continuum.", "anchors": ["src/frydom/core/math/Torsor.cpp: Set, TransportMomentAtPoint"]}
{"id": "C19", "title": "Inertia tensor obeys the parallel-axis theorem and adds like mass distributions", "statement": "Whatever finite set of point masses a tensor describes, the coefficients read at any frame are those of these masses in that frame; adding a second tensor known in another frame gives the tensor of the union of both sets.", "quantifier": "all finite mass distributions, all frames", "why_tests_cant": "Quantifies over unbounded sets of masses and all frames.", "anchors": ["src/frydom/core/body/FrInertiaTensor.cpp: constructors, GetInertiaCoeffsAtFrame, GetInertiaCoeffsAtCOG, Add, GetPointMassInertiaMatrix"]}
{"id": "C20", "title": "Inertia coefficients round-trip in both conventions", "statement": "Building a tensor from coefficients at COG (or at a frame) in a convention and reading them back at COG (or that frame) in the same convention returns them.", "quantifier": "all coefficients, positions, both conventions", "why_tests_cant": "Continuum; NED products of inertia are usually zero in tests.", "anchors": ["src/frydom/core/body/FrInertiaTensor.cpp: FrInertiaTensor(..., cogPos, fc), GetInertiaCoeffsAtCOG"]}
{"id": "C21", "title": "The time recorder stores the piecewise-linear signal on its grid", "statement": "If a signal is recorded with time increments not exceeding the recorder step, the buffer holds the newest sample followed by the values of the piecewise-linear interpolant of the recorded signal at the successive grid instants, newest first, limited to the capacity; GetTime lists the corresponding delays.", "quantifier": "all recording histories (any length), any step and capacity", "why_tests_cant": "Unbounded histories, ring-buffer wrap-around.", "anchors": ["src/frydom/utils/FrRecorder.h: Record, Interpolate, GetTime, Initialize"]}
{"id": "C22", "title": "Delayed reads interpolate between the neighbouring samples", "statement": "GetData(d), for a positive delay d not exceeding the oldest stored delay, is defined and is the linear interpolation of the two stored samples around it (in particular exact at sample delays, and between their values); other delays, including 0, are outside the contract (out-of-range index).", "quantifier": "all buffers and delays", "why_tests_cant": "Boundary delays (0, last) are exactly where indexing goes out of range.", "anchors": ["src/frydom/utils/FrRecorder.h: GetData(double)"]}
{"id": "C23", "title": "Polygon integrals equal the surface integrals", "statement": "For a planar closed polygon the reported integrals of 1,x,y,xy,x2,y2,x2y,xy2,x3,y3 are the true surface integrals over the polygon.", "quantifier": "all closed polygons, any number of vertices", "why_tests_cant": "Unbounded vertex lists and real coordinates; an uninitialised accumulator is not visible on most runs.", "anchors": ["src/frydom/mesh/FrPolygon.cpp: ComputeSurfacePolynomialIntegrals"]}
{"id": "C24", "title": "Plane geometry", "statement": "The intersection of a plane with a non-parallel line lies on both; the closest point is the orthogonal projection and realises the distance; the plane's frame is right-handed orthonormal with z along the normal; all in both conventions. A plane built from points lying in a plane, in either convention, is that plane, its origin their mean.", "quantifier": "all planes, lines, points", "why_tests_cant": "Continuum; the degenerate normal parallel to y is measure zero.", "anchors": ["src/frydom/mesh/FrPlane.cpp"]}
{"id": "C25", "title": "Wave number solves the dispersion relation", "statement": "SolveWaveDispersionRelation returns the positive k with w^2 = g k tanh(k h) up to the tolerance (w^2/g in infinite depth), and the iteration terminates.", "quantifier": "all w>0, g>0, depths", "why_tests_cant": "Termination and convergence for every real input.", "anchors": ["src/frydom/environment/ocean/freeSurface/waves/FrWaveDispersionRelation.cpp"]}
{"id": "C26", "title": "Stretching functions extend linear kinematics and have consistent z-derivatives", "statement": "Below the mean level every kinematic stretching equals (at zero elevation) the Airy depth function, and EvalDZ is the z-derivative of Eval.", "quantifier": "all depths, wave numbers, positions, elevations", "why_tests_cant": "Real-valued; branch at the surface.", "anchors": ["src/frydom/environment/ocean/freeSurface/waves/FrKinematicStretching.cpp"]}
{"id": "C27", "title": "DOF mask bookkeeping", "statement": "After any sequence of lock/unlock operations, the number of locked plus free degrees of freedom is 6, each GetLock_ reports the last setting, IsFree holds iff none is locked, and SetLinkType(t) makes the mask that of joint t and GetLinkType return t.", "quantifier": "all operation sequences", "why_tests_cant": "Unbounded operation sequences.", "anchors": ["src/frydom/core/link/links_lib/FrDOFMaskLink.cpp"]}
{"id": "C28", "title": "Static analysis leaves the system's configuration as it found it", "statement": "During SolveStatic exactly the objects included in static analysis are active (every body not fixed, every link not broken, the forces and items that are included); afterwards every body, force, link and physics item has the activity it had just before the call, the simulation time and the time ramp are restored, at most the configured number of iterations is made, and success is reported only if the residual was below the tolerance.", "quantifier": "all systems, all sequences of user (de)activations and SolveStatic calls", "why_tests_cant": "Needs repeated runs with changes in between, unbounded histories.", "anchors": ["src/frydom/core/statics/FrStaticAnalysis.cpp"]}
{"id": "C29", "title": "Linear damping dissipates energy", "statement": "With damping coefficients accepted by the library, the damping force never does positive work on the body's velocity relative to the fluid.", "quantifier": "all accepted matrices, all velocities", "why_tests_cant": "Continuum of matrices and velocities.", "anchors": ["src/frydom/hydrodynamics/damping/FrLinearDamping.cpp: Compute, Check"]}
{"id": "C30", "title": "Quadratic damping opposes motion and dissipates", "statement": "With nonnegative coefficients each force component opposes the corresponding velocity component, is odd and quadratic in it; power is never positive.", "quantifier": "all coefficients, velocities, densities", "why_tests_cant": "Continuum.", "anchors": ["src/frydom/hydrodynamics/damping/FrQuadraticDamping.cpp: Compute"]}
{"id": "C31", "title": "Manoeuvring terms have the requested degree and oppose motion", "statement": "A term of total degree n in a velocity component scales as the n-th power of that component and changes sign with it, so that single-velocity terms with positive coefficients dissipate.", "quantifier": "all degrees, coefficients, velocities", "why_tests_cant": "All degrees m,n,p.", "anchors": ["src/frydom/hydrodynamics/manoeuvring/FrManoeuvringDamping.cpp: SetParams, ForceComponent, Compute"]}
{"id": "C32", "title": "Polar force tables are completed by symmetry and periodic", "statement": "A half-table over [0,180] (or [-180,0]) is completed by port/starboard symmetry, the angles end sorted in [0,2pi] and the value at 2pi equals the value at the first angle. Defect: when no row of the file is for a flow going straight ahead, directions between 0 and the first angle are below every row of the lookup table and the row at 2pi has the coefficients of that other angle.", "quantifier": "all tables", "why_tests_cant": "All table lengths and unit/convention combinations.", "anchors": ["src/frydom/environment/flow/FrFlowForce.cpp: ReadTable"]}
{"id": "C33", "title": "Rotations and frames built from axes or matrices have those axes", "statement": "A rotation built from a right-handed orthonormal triple of directions (or from a rotation matrix), given in either convention, is a proper rotation whose axes read in that convention are the given ones (and which maps vectors as the matrix does); a frame set from a position and three axes in a convention has, in that convention, this position and these axes.", "quantifier": "all right-handed orthonormal triples, all rotation matrices (every branch of the conversion), both conventions", "why_tests_cant": "the conversion to a quaternion has four branches on the trace and diagonal of the matrix; a test only reaches chosen attitudes", "anchors": ["src/frydom/core/common/FrRotation.cpp FrRotation::Set, FrUnitQuaternion::Set", "src/frydom/core/common/FrFrame.cpp FrFrame::Set"]}
{"id": "C34", "title": "Polygon bounding box and vertices", "statement": "The vertex list of a polygon read back in the convention it was given in is the list given; its bounding box contains the horizontal position of every vertex and each side is touched by a vertex.", "quantifier": "all vertex lists accepted by the constructor, both frame conventions", "why_tests_cant": "Unbounded vertex lists with real coordinates.", "anchors": ["src/frydom/mesh/FrPolygon.cpp: FrPolygon, GetVertexList, GetBoundingBox"]}
{"id": "C35", "title": "Airy wave fields are linear free-surface flows", "statement": "The elevation, velocity, acceleration and dynamic pressure reported by a regular or irregular Airy wave field (NWU, no stretching, constant ramp) are those of a linear free-surface flow: divergence-free, irrotational, acceleration = time derivative of velocity, linearised Euler equation, kinematic and dynamic conditions at the mean level, no flow through the bottom (or decay at depth); irregular fields are the superposition of their components.", "quantifier": "all points, all times, any number of directions and frequencies, all amplitudes, phases, depths; wave numbers solving the dispersion relation exactly, or up to a residual (with the resulting bound)", "why_tests_cant": "identities between derivatives at every point of space-time, for unbounded numbers of components", "anchors": ["src/frydom/environment/ocean/freeSurface/waves/airy/FrAiryIrregularWaveField.cpp", "src/frydom/environment/ocean/freeSurface/waves/airy/FrAiryRegularWaveField.cpp", "src/frydom/environment/ocean/freeSurface/waves/FrWaveField.cpp: Update"]}
{"id": "C36", "title": "Wave queries in NED describe the same flow as in NWU", "statement": "The elevation, velocity, acceleration and pressure asked in NED at a point are the NED components of those asked in NWU at the same point of space; with the cut-off option, the velocity and acceleration are those of the field in the water and zero in the air.", "quantifier": "all wave fields, all points, both conventions", "why_tests_cant": "holds for every point and every set of components; symmetric test points (y=0) hide the defect", "anchors": ["src/frydom/environment/ocean/freeSurface/waves/airy/FrAiryIrregularWaveField.cpp: GetComplexElevation, GetComplexVelocity, GetPressure", "src/frydom/environment/ocean/freeSurface/waves/FrWaveField.cpp: GetVelocity(cutoff), GetAcceleration(cutoff)"]}
{"id": "C37", "title": "Optimised wave fields report what the plain ones do", "statement": "An optimised regular or irregular wave field reports the same elevation, velocity, acceleration and pressure as the plain field with the same data.", "quantifier": "all histories of updates and step finalisations, all points, both conventions, all stretchings", "why_tests_cant": "the caches may be out of date after some histories; a test follows one schedule", "anchors": ["src/frydom/environment/ocean/freeSurface/waves/airy/FrAiryRegularOptimWaveField.cpp", "src/frydom/environment/ocean/freeSurface/waves/airy/FrAiryIrregularOptimWaveField.cpp"]}
{"id": "C38", "title": "Wave direction set and read back", "statement": "A wave direction set in a unit, frame convention and direction convention is the physical heading it denotes, and reading it back in the same unit and conventions gives the same angle up to whole turns.", "quantifier": "all angles, degrees and radians, NWU/NED, goto/comefrom", "why_tests_cant": "all real angles and all convention combinations; typical tests use a few angles in degrees", "anchors": ["src/frydom/environment/ocean/freeSurface/waves/airy/FrAiryRegularWaveField.cpp: SetDirection, GetDirectionAngle, GetDirection", "src/frydom/environment/ocean/freeSurface/waves/airy/FrAiryIrregularWaveField.cpp: GetWaveDirections, SetMeanWaveDirectionAngle"]}
{"id": "C39", "title": "Regular wave period, depth regime and stretching", "statement": "Setting the period of a regular wave field gives the wave number of that period in the depth of the sea bottom, whatever was set before; after initialisation the vertical profile and the pressure law use the same depth regime; the stretching asked for is the one used.", "quantifier": "all periods and histories of periods, finite and infinite depth, all stretching types", "why_tests_cant": "history dependence: the defect only shows on a second period", "anchors": ["src/frydom/environment/ocean/freeSurface/waves/airy/FrAiryRegularWaveField.cpp: SetWavePeriod, Initialize, SetStretching"]}
{"id": "C40", "title": "Wave spectra", "statement": "The JONSWAP density is nonnegative, zero for nonpositive frequencies and largest at the peak frequency for every peakedness factor of the documented range; the Pierson-Moskowitz density is nonnegative and peaks within 0.1 % of the peak frequency; the area of Pierson-Moskowitz and of JONSWAP with factor 1 is Hs²/16.", "quantifier": "all significant heights, peak frequencies, peakedness factors in [1, exp(1/0.287)], all frequencies", "why_tests_cant": "maxima and integrals over all frequencies for all parameters", "anchors": ["src/frydom/environment/ocean/freeSurface/waves/FrWaveSpectrum.cpp: FrJonswapWaveSpectrum::Eval, FrPiersonMoskowitzWaveSpectrum::Eval"]}
{"id": "C41", "title": "Component amplitudes carry the energy of the spectrum", "statement": "For one, two, four or more increasing frequencies (and directions) there is one nonnegative amplitude per component, whose energy a²/2 is the spectral density (times spreading) times the cell width(s); cell widths add up to the band extended by half a spacing at both ends; the total energy is the product of the discrete frequency and direction integrals.", "quantifier": "all spectra, spreading functions and grids of any size", "why_tests_cant": "unbounded grid sizes, arbitrary spectra", "anchors": ["src/frydom/environment/ocean/freeSurface/waves/FrWaveSpectrum.cpp: GetWaveAmplitudes, vectorDiscretization"]}
{"id": "C42", "title": "Three-point grids are read out of bounds", "statement": "With exactly three frequencies (or three directions) one cell width is missing and computing the amplitudes reads beyond the end of the width vector; without a directional model the same happens to the spreading vector for two or more directions.", "quantifier": "all spectra, all three-element grids, all direction lists of two or more", "why_tests_cant": "a test with other grid sizes passes; out-of-bounds reads may go unnoticed", "anchors": ["src/frydom/environment/ocean/freeSurface/waves/FrWaveSpectrum.cpp: vectorDiscretization, GetWaveAmplitudes"]}
{"id": "C43", "title": "Directional spreading is a density", "statement": "The cos2s spreading function integrates to one over the circle for every positive spreading factor, and within half a turn of the mean direction it is nonnegative, symmetric, decreasing away from the mean direction and zero opposite to it.", "quantifier": "all real spreading factors > 0, all mean directions", "why_tests_cant": "an identity between Gamma functions and an integral for every real parameter", "anchors": ["src/frydom/environment/ocean/freeSurface/waves/FrWaveSpectrum.cpp: FrCos2sDirectionalModel"]}
{"id": "C44", "title": "Bandwidth searches", "statement": "The bandwidth search always ends: it throws, or returns an abscissa strictly inside the interval where the density is within 1e-10 of the threshold; it succeeds whenever the density crosses the threshold and is Lipschitz; the frequency bandwidth surrounds the peak; the direction bandwidth of the cos2s model exists and is symmetric about the mean direction for every spreading factor in [1/2, 1000]. For JONSWAP (peakedness 1 to 10) and Pierson-Moskowitz sea states of significant height up to 50 m and peak frequency from 0.05 to 3.7 rad/s the frequency bandwidth exists. (Defect: JONSWAP sea states of peak frequency from 4.5 to 10 rad/s and peakedness up to 3.3 are refused.)", "quantifier": "all densities, intervals and thresholds; all spreading factors and mean directions", "why_tests_cant": "termination and accuracy of a loop for every function", "anchors": ["src/frydom/environment/ocean/freeSurface/waves/FrWaveSpectrum.cpp: dichotomySearch, GetFrequencyBandwidth, GetDirectionBandwidth"]}
{"id": "C45", "title": "Multi-turn angle and spring-damper of a revolute link", "statement": "Over any history of relative motion about the axis that turns less than half a turn between updates, the link angle equals the accumulated relative angle (any number of turns, both senses) minus the rest angle, exactly outside a dead band of about 3e-4 rad around whole turns and within 5e-4 rad in it; errors never accumulate; the number of turns is the whole part of the total angle; the link torque is the restoring spring-damper law and damping never gives power.", "quantifier": "all sequences of updates, any number of turns, both quaternion signs", "why_tests_cant": "history property over unbounded sequences; quaternion sign and wrap-around", "anchors": ["src/frydom/core/link/links_lib/FrRevoluteLink.cpp: Update, GetLinkAngle, GetNbTurns, UpdateForces, GetLinkPower", "src/frydom/core/common/FrRotation.cpp: GetRotationVector"]}
{"id": "C46", "title": "Rest angle of a revolute link", "statement": "The rest angle set is the rest angle read back, and taking the present configuration as the reference makes the link angle zero.", "quantifier": "all rest angles in ]-pi, pi]", "why_tests_cant": "sign dependent; tests with positive angles pass", "anchors": ["src/frydom/core/link/links_lib/FrRevoluteLink.cpp: SetRestAngle, GetRestAngle, UpdateCache", "src/frydom/core/link/links_lib/FrLink.cpp: SetThisConfigurationAsReference"]}
{"id": "C47", "title": "Action and reaction in a link", "statement": "The reaction wrench returned for body 1 (force and torque at its COG) and the one returned for body 2 are opposite in the world: forces add to zero and so do moments about every point, whatever the positions and orientations of the bodies and nodes and in both frame conventions.", "quantifier": "all body and node frames, all reactions, both conventions, all points", "why_tests_cant": "all configurations; a sign or lever-arm error can vanish in aligned test configurations", "anchors": ["src/frydom/core/link/links_lib/FrLink.cpp: GenerateCache, GetLinkReactionForceOnBody1/2, GetLinkReactionTorqueOnBody1AtCOG/OnBody2AtCOG"]}
{"id": "C48", "title": "Relative motion of the nodes of a link", "statement": "The velocities, angular velocities and accelerations returned for node 1 relative to node 2 are the derivatives of the relative position, orientation and velocity returned for node 1 relative to node 2, and are expressed in the frame convention asked for.", "quantifier": "all differentiable relative motions, all times, both conventions", "why_tests_cant": "time derivatives along arbitrary motions", "anchors": ["src/frydom/core/link/links_lib/FrLink.cpp: GenerateCache, GetVelocityOfNode1WRTNode2, GetVelocityOfNode2WRTNode1, GetAngularVelocityOfNode1WRTNode2, GetAccelerationOfNode1WRTNode2"]}
{"id": "C49", "title": "Prismatic link spring and damper", "statement": "With the joint satisfied, the force of a prismatic link is -k (length - rest length) - c times the derivative of the length, it acts along the slider without torque, its damping part never gives power, and the rest length read back is the last one set.", "quantifier": "all motions along the slider, stiffnesses, dampings and rest lengths", "why_tests_cant": "all motions and parameters", "anchors": ["src/frydom/core/link/links_lib/FrPrismaticLink.cpp: Update, UpdateForces, SetRestLength, GetLinkForce, GetLinkPower"]}
{"id": "C50", "title": "Position and orientation of a body", "statement": "After any sequence of position, rotation, frame, COG, translation and rotation calls on a body, the getters return what was last set, the points of the body move rigidly (the distance of any two is unchanged), world and body coordinates of points are inverse of each other, setting the position of a body point puts that point there, and a rotation about a point leaves that point in place; all this in both frame conventions.", "quantifier": "all bodies, all sequences of calls, all points, unit quaternions, both conventions", "why_tests_cant": "unbounded call histories and a continuum of configurations", "anchors": ["src/frydom/core/body/FrBody.cpp: SetPosition, SetRotation, SetFrame, TranslateInWorld, TranslateInBody, SetPositionOfBodyPoint, RotateAroundPointInWorld, RotateAroundPointInBody, RotateAroundCOG, Rotate, GetPointPositionInWorld, GetPointPositionInBody, UpdateAfterMove"]}
{"id": "C51", "title": "Velocities of a body", "statement": "Setting the generalised velocity at any point (world or body axes, point given in the world or in the body, either convention) makes every velocity getter return the rigid-body velocity field it defines; moving the body keeps its velocity.", "quantifier": "all bodies, points, velocities, conventions", "why_tests_cant": "a continuum of states; the field must be right at every point, not only where it was set", "anchors": ["src/frydom/core/body/FrBody.cpp: SetGeneralizedVelocityInWorldAtPointInWorld (and variants), SetVelocityInWorldNoRotation, SetAngularVelocityInWorld, SetCOGAngularVelocityInWorld, GetVelocityInWorldAtPointInWorld (and variants)"]}
{"id": "C52", "title": "Force and torque applied at a point", "statement": "Setting a force and a torque at a point (world or body axes, world or body point, either convention) gives exactly the equipollent load: force read back, torque about every point of the world, and the power in every motion of the body.", "quantifier": "all bodies, points, forces, torques, motions, both conventions", "why_tests_cant": "a continuum of configurations; lever-arm and axis errors vanish in aligned tests", "anchors": ["src/frydom/core/force/FrForce.cpp: SetForceTorqueInWorldAtPointInBody (and variants), SetForceInWorldAtPointInBody (and variants), GetTorqueInWorldAtPointInWorld (and variants)"]}
{"id": "C53", "title": "Force limits and activity", "statement": "Whatever the force model computes, a limited force never exceeds its force and torque limits and keeps its direction, it is unchanged below the limits, and an inactive force applies nothing.", "quantifier": "all force models, limits and bodies", "why_tests_cant": "arbitrary force models", "anchors": ["src/frydom/core/force/FrForce.cpp: FrForceBase::UpdateState, Update, SetMaxForceLimit, SetMaxTorqueLimit, SetLimit, SetActive"]}
{"id": "C54", "title": "Nodes stay attached to their body", "statement": "After any sequence of calls on a body and one of its nodes the node frame in the world is the body frame composed with the node frame in the body, its world position and velocity are those of that point of the body, what is set is read back, and no call on the body (including moving its COG) changes the place of the node in the body. The velocity read in the axes of the node is that same velocity.", "quantifier": "all histories of body and node calls, both conventions, all motions", "why_tests_cant": "unbounded call histories; the node is stored relative to the COG, which can move", "anchors": ["src/frydom/core/common/FrNode.cpp: GetFrameInWorld, GetFrameInBody, SetFrameInBody, SetFrameInWorld, SetPositionInBody, SetPositionInWorld, TranslateInWorld, SetOrientationInBody, GetVelocityInWorld", "src/frydom/core/body/FrBody.cpp: SetCOG, UpdateAfterMove"]}
{"id": "C55", "title": "Axes of node moves", "statement": "TranslateInBody(t) moves a node by t along the axes of the body and RotateInWorld(q)/RotateInBody(q) turn it about the axes of the world/body.", "quantifier": "all nodes, translations and rotations", "why_tests_cant": "all orientations; aligned test nodes cannot tell the axes apart", "anchors": ["src/frydom/core/common/FrNode.cpp: TranslateInBody, RotateInBody, RotateInWorld, RotateAroundXInWorld"]}
{"id": "C56", "title": "Inertia of a body", "statement": "The inertia tensor set on a body is the one read back and does not move the body, and for every set of point masses it describes, the momentum and the kinetic energy of the body (from its mass, COG velocity, inertia and spin) are those of the masses moving with the velocities read from the body, in every rigid motion.", "quantifier": "all tensors, finite mass distributions, motions, both conventions", "why_tests_cant": "all mass distributions and motions", "anchors": ["src/frydom/core/body/FrBody.cpp: SetInertiaTensor, GetInertiaTensor, GetMass, SetCOG"]}
{"id": "C57", "title": "What is in a system", "statement": "After any history of calls that return normally (Add, Remove, AddExternalForce, RemoveExternalForce, NewNode), an object added and not removed since is exactly once in the container of its kind and of the solver, is updated exactly once per step and, if loggable, logged exactly once, as are the forces and nodes of its bodies; removed objects are nowhere; and such calls return normally when names are new.", "quantifier": "all histories of calls, all objects", "why_tests_cant": "unbounded histories; objects go through several containers", "anchors": ["src/frydom/core/FrOffshoreSystem.cpp: Add, Remove, AddBody, RemoveBody, StepFinalize", "src/frydom/core/body/FrBody.cpp: AddExternalForce, RemoveExternalForce, RemoveAllForces, RemoveAllNodes, NewNode", "src/frydom/logging/FrLogManager.cpp: Add, Remove"]}
{"id": "C58", "title": "Log paths are unique", "statement": "Two different objects registered in a system never have the same log path; and without slashes in names the path determines the kind, the name and the parents.", "quantifier": "all histories of calls, all names", "why_tests_cant": "all names and histories", "anchors": ["src/frydom/logging/FrPathManager.h: GetPath, RegisterTreeNode", "src/frydom/logging/FrPathPolicies.cpp: TypeToNormalizedPathPrefix"]}
{"id": "C59", "title": "Undoing an addition", "statement": "An object removed from a system can be added again; an Add that throws leaves the system as it was; Remove takes away all that Add brought; RemoveAllBodies (Links, Constraints, Actuators) empties the container; Clear leaves nothing of the old objects.", "quantifier": "all histories of calls", "why_tests_cant": "unbounded histories and failed calls", "anchors": ["src/frydom/core/FrOffshoreSystem.cpp: Add, Remove, RemoveAllBodies, RemoveAllLinks, RemoveDynamicCable, Clear, SetSystemType", "src/frydom/logging/FrPathManager.h: RegisterTreeNode"]}
{"id": "C60", "title": "A uniform flow is the one given", "statement": "The velocity, the speed and angle or the compass direction given to a current or a wind is the velocity read, in both frame conventions and for both direction conventions (GOTO, COMEFROM); the velocity relative to a moving frame is the flow minus the velocity of the frame, seen in its axes.", "quantifier": "all velocities, angles, speeds, units, conventions and frames", "why_tests_cant": "continuum of angles, all conventions", "anchors": ["src/frydom/environment/flow/FrUniformField.cpp: Set, SetNorth, ..., GetFlux", "src/frydom/environment/flow/FrFlowBase.cpp: GetRelativeVelocityInFrame", "src/frydom/core/math/FrVector.cpp: NORTH, NORTH_EAST, ..."]}
{"id": "C61", "title": "Flow and ramp", "statement": "During a simulation the velocity of a current or wind with the time ramp is the field times the ramp at the current time.", "quantifier": "all ramps, histories of updates, ends of step and setters", "why_tests_cant": "unbounded histories", "anchors": ["src/frydom/environment/flow/FrFlowBase.cpp: Update, StepFinalize, GetFluxVelocityInWorld"]}
{"id": "C62", "title": "Which fluid is at a point", "statement": "The fluid at a point of space does not depend on the convention in which the point is written; it is air exactly above the free surface.", "quantifier": "all points, surfaces, conventions", "why_tests_cant": "continuum of points; both conventions", "anchors": ["src/frydom/environment/FrEnvironment.cpp: GetFluidTypeAtPointInWorld"]}
{"id": "C63", "title": "Depth and bathymetry", "statement": "The bathymetry set is the one read, in both conventions, and the depth is the height of the water column.", "quantifier": "all bathymetries, tides, conventions", "why_tests_cant": "all values in both conventions", "anchors": ["src/frydom/environment/ocean/FrOcean.cpp: GetDepth", "src/frydom/environment/ocean/seabed/FrSeabed.cpp: SetBathymetry, GetBathymetry"]}
{"id": "C64", "title": "Loads from polar tables", "statement": "The current or wind load of a body with a polar table is, at every instant, a horizontal force and a vertical couple at the centre of gravity equal to half the density times the coefficients of the table at the direction of the flow relative to the body, the reference areas (and length) and the square of the relative speed, along and across the heading.", "quantifier": "all tables, motions, attitudes with a heading, flows, densities", "why_tests_cant": "continuum of motions and flows", "anchors": ["src/frydom/environment/flow/FrFlowForce.cpp: FrFlowForce::Compute, FrCurrentForce::Compute, FrWindForce::Compute"]}
{"id": "C65", "title": "Standard current and wind loads", "statement": "The standard loads are drags: on an upright body each component is quadratic in the relative flow and along it, mirrored from port to starboard with the flow; the couple is the sway force times a lever in fixed bounds of the length; they act at the given centre; parameters missing are refused at initialisation.", "quantifier": "all motions, flows, parameters", "why_tests_cant": "continuum of motions and flows", "anchors": ["src/frydom/environment/ocean/current/FrCurrentStandardForce.cpp: Compute, Initialize", "src/frydom/environment/atmosphere/wind/FrWindStandardForce.cpp: Compute, Initialize"]}
{"id": "C66", "title": "Clipping a mesh leaves nothing above", "statement": "Clipping a triangle mesh by a plane, or by any surface whose edge intersections are on it, ends without failing an assertion and leaves no part of the mesh more than the threshold above the surface, whatever the projection ratio.", "quantifier": "all manifold triangle meshes, planes, body positions, thresholds, projection ratios, orders in which the mesh library lists elements", "why_tests_cant": "unbounded meshes; the loop visits the faces it creates; every order of circulation", "anchors": ["src/frydom/mesh/FrMeshClipper.cpp: FrMeshClipper::Apply, Clip, ProcessFace, ProcessHalfEdge, HasProjection, ApplyFaceDeletion"]}
{"id": "C67", "title": "Clipping keeps exactly the wetted surface", "statement": "When no vertex is projected, the clipped mesh and the dropped part make up exactly the original surface, their areas add up, every remaining triangle lies in an original one with the same orientation, and every point more than the threshold below the plane remains.", "quantifier": "all meshes, planes, thresholds, choices of the mesh library", "why_tests_cant": "continuum of points; unbounded meshes", "anchors": ["src/frydom/mesh/FrMeshClipper.cpp: ProcessFace, ProcessHalfEdge, FlagVertexAdjacentFacesToBeDeleted, InsertIntersectionVertex"]}
{"id": "C68", "title": "Projection only moves vertices to the surface", "statement": "With projection, every corner of the clipped mesh is an original vertex or is on the surface within the threshold, and triangles away from the waterline remain unchanged.", "quantifier": "all meshes, surfaces, projection ratios", "why_tests_cant": "unbounded meshes and sequences of projections", "anchors": ["src/frydom/mesh/FrMeshClipper.cpp: HasProjection, ProcessFace"]}
{"id": "C69", "title": "Clipping by the waves", "statement": "The dichotomy finds a point of the edge within 1e-4 of the free surface for every wave field of bounded slope, and the clipping by it ends with every corner below the free surface within the threshold.", "quantifier": "all wave fields of bounded slope, meshes, body positions", "why_tests_cant": "continuum of wave fields and positions", "anchors": ["src/frydom/mesh/FrMeshClipper.cpp: FrClippingWaveSurface::GetDistance, GetIntersection"]}
{"id": "C70", "title": "Surface integrals of a mesh", "statement": "The integrals of monomials stored for each face of a mesh are the integrals over the triangle, whichever vertex is read first, so the areas reported for the mesh and its boundary polygons are exact.", "quantifier": "all triangles, all sixteen monomials, all meshes with flat boundary loops", "why_tests_cant": "real-valued integrals over every triangle; the mesh library chooses the first vertex", "anchors": ["src/frydom/mesh/FrMesh.cpp: CalcFacePolynomialIntegrals, GetMeshedSurfaceIntegral, GetMeshedSurfaceArea, GetArea"]}
{"id": "C71", "title": "Volume of a mesh", "statement": "GetVolume is the volume enclosed by the mesh and by the polygons closing its flat boundary loops.", "quantifier": "all triangle meshes, closed or with any number of flat boundary loops in any plane", "why_tests_cant": "unbounded meshes; the closing polygons are computed by contour integrals in their own frames", "anchors": ["src/frydom/mesh/FrMesh.cpp: GetVolume, CalcBoundaryPolygonSet", "src/frydom/mesh/FrPolygon.cpp: CalcSurfaceIntegrals"]}
{"id": "C72", "title": "Centre of a mesh", "statement": "GetCOG is the barycentre of the volume enclosed by the mesh and by the polygons closing its boundary loops.", "quantifier": "all triangle meshes of nonzero volume, closed or with flat boundary loops", "why_tests_cant": "unbounded meshes, any plane of the loops", "anchors": ["src/frydom/mesh/FrMesh.cpp: GetCOG"]}
{"id": "C73", "title": "Inertia of a solid mesh", "statement": "GetPlainInertiaTensor has the mass, centre, moments and products of inertia of the enclosed homogeneous solid.", "quantifier": "all triangle meshes, closed or with flat boundary loops, all densities", "why_tests_cant": "unbounded meshes; uninitialised memory enters the integrals of the polygons", "anchors": ["src/frydom/mesh/FrMesh.cpp: GetPlainInertiaTensor"]}
{"id": "C74", "title": "Inertia of a shell mesh", "statement": "GetShellInertiaTensor has the mass, centre, moments and products of inertia of a thin shell of the given thickness and density.", "quantifier": "all closed triangle meshes, densities, thicknesses", "why_tests_cant": "unbounded meshes", "anchors": ["src/frydom/mesh/FrMesh.cpp: GetShellInertiaTensor"]}
{"id": "C75", "title": "Box meshes", "statement": "CreateBox makes a closed mesh with the volume, centre and inertia of a cuboid, and GetBoundingBox is the smallest box around the vertices.", "quantifier": "all dimensions, all choices of first vertices by the mesh library; all meshes", "why_tests_cant": "real dimensions; unspecified order in the mesh library", "anchors": ["src/frydom/mesh/FrMesh.cpp: CreateBox, GetBoundingBox"]}
{"id": "C76", "title": "Moving a mesh", "statement": "Translating or rotating a mesh keeps its volume and moves its centre as its vertices; rotations by angles are the Cardan rotations of the library.", "quantifier": "all meshes with flat boundary loops, all translations and angles", "why_tests_cant": "continuum of motions and meshes", "anchors": ["src/frydom/mesh/FrMesh.cpp: Translate, Rotate"]}
{"id": "C77", "title": "Wetted part of a moving body", "statement": "At every time the clipped mesh of a body, put back where the body is, is the part of the surface of the body under the free surface (up to the threshold of the clipper), for a plane at the height of the tide or for waves; a mesh given with an offset frame is placed in the body by this frame.", "quantifier": "all positions and attitudes of the body, all triangle meshes, tides, wave fields of bounded slope, choices of the mesh library, offset frames", "why_tests_cant": "continuum of attitudes and meshes; unspecified order in the mesh library", "anchors": ["src/frydom/mesh/FrHydroMesh.cpp: Compute, Initialize, ImportMesh"]}
{"id": "C78", "title": "Archimedes", "statement": "The nonlinear hydrostatic force of a body floating in still water is rho g V upwards, applied at the centre of the immersed volume; it is zero for a body out of the water; it is accurate to rho g threshold times the area of the waterplane when the clipped boundary is only close to the surface; it follows the tide.", "quantifier": "all clipped meshes with any number of boundary loops, densities, gravities, positions and attitudes of the body, tides", "why_tests_cant": "divergence theorem over unbounded meshes", "anchors": ["src/frydom/hydrodynamics/hydrostatic/FrNonlinearHydrostaticForce.cpp: Compute, GetHydrostaticForceInWorld, GetCenterOfBuoyancyInWorld"]}
{"id": "C79", "title": "Hydrostatic load in waves", "statement": "In waves the nonlinear hydrostatic force and torque are the resultant and the moment of the hydrostatic pressure on the wetted faces.", "quantifier": "all meshes, all bodies", "why_tests_cant": "unbounded meshes; the mesh library chooses the first vertex of each face", "anchors": ["src/frydom/hydrodynamics/hydrostatic/FrNonlinearHydrostaticForce.cpp: Compute, GetHydrostaticForceInWorld, GetHydrostaticTorqueInWorld"]}
{"id": "C80", "title": "Hydrostatic properties of a hull", "statement": "For a clipped hull the hydrostatic properties (volume, wetted area, water plane area and centre, metacentric radii and heights, stiffness matrix, lengths) are those of their definitions at the given centre of gravity and reduction point, whatever the number of boundary loops and of calls; the stiffness matrix is symmetric.", "quantifier": "all clipped meshes with horizontal boundary loops, densities, gravities, centres of gravity, reduction points, conventions, numbers of calls", "why_tests_cant": "unbounded meshes; integrals over polygons", "anchors": ["src/frydom/hydrodynamics/hydrostatic/FrHydrostaticsProperties.cpp: ComputeProperties, CalcGeometricProperties, CalcHydrostaticProperties", "src/frydom/hydrodynamics/hydrostatic/FrLinearHydrostaticStiffnessMatrix.cpp: FrLinearHydrostaticStiffnessMatrix"]}
{"id": "C81", "title": "Equilibrium frame", "statement": "An equilibrium frame made on a body is at the given point, level, at the given angle from the heading of the body, and the body is unperturbed relative to it; it then moves at its velocity and rate of turn and stays level, whatever the sequence of times.", "quantifier": "all placed bodies, points, angles, conventions, velocities, sequences of times (steps, repetitions, going back)", "why_tests_cant": "unbounded sequences of times, continuum of attitudes", "anchors": ["src/frydom/hydrodynamics/FrEquilibriumFrame.cpp: FrEquilibriumFrame, SetEqFramePositionOrientation, ApplyFrameProjection, Compute, GetPerturbationFrame"]}
{"id": "C82", "title": "Velocities of the equilibrium frame", "statement": "Velocities set on an equilibrium frame are those read, in the world or in the frame and in both conventions; perturbation velocities are those of the point of the body relative to the frame.", "quantifier": "all frames, velocities, rates of turn, bodies, conventions", "why_tests_cant": "continuum of velocities and attitudes", "anchors": ["src/frydom/hydrodynamics/FrEquilibriumFrame.cpp: SetVelocityInWorld, SetVelocityInFrame, SetAngularVelocity, GetFrameVelocityInWorld, GetFrameVelocityInFrame, GetPerturbationVelocityInWorld, GetPerturbationVelocityInFrame, GetPerturbationAngularVelocity, Initialize"]}
{"id": "C83", "title": "Linear hydrostatic load", "statement": "The linear hydrostatic force is the weight balance plus minus the stiffness times (heave, roll, pitch) from the equilibrium frame, applied at the centre of gravity; at equilibrium it balances the weight exactly; the stiffness matrix given is the one used and stays symmetric; a stiffness computed from a mesh is that of the point where the load is applied. Defect: a matrix given by SetData is used even when asymmetric, while the one read back is symmetric.", "quantifier": "all displacements within the range of the Cardan angles, stiffness matrices, bodies, meshes", "why_tests_cant": "continuum of displacements", "anchors": ["src/frydom/hydrodynamics/hydrostatic/FrLinearHydrostaticForce.cpp: Compute, SetStiffnessMatrix, make_linear_hydrostatic_force"]}
{"id": "C84", "title": "Spring-damped equilibrium frame", "statement": "With the spring-damper equilibrium frame, for a body in steady motion the horizontal position and velocity of the frame converge to those of the body whatever the initial frame, for every step within the stability bound; the frame stays level and at its altitude; its heading turns towards that of the body.", "quantifier": "all initial frames, cutoff times, damping ratios, steps within the bound, steady motions, numbers of steps", "why_tests_cant": "a limit over unbounded runs, from a continuum of initial frames", "anchors": ["src/frydom/hydrodynamics/FrEquilibriumFrame.cpp: FrEqFrameSpringDamping, SetSpringDamping, Compute"]}
{"id": "C85", "title": "Mean-motion equilibrium frame", "statement": "With the mean-motion equilibrium frame, for a body in uniform motion the frame has the velocity and rate of turn of the body and moves with it, whatever the persistence, sampling and time steps. Defects: with the position correction a frame in uniform motion settles one time step ahead of the body; the heading correction turns the wrong way round across south.", "quantifier": "all frames, uniform motions, persistence and sampling times, sequences of times", "why_tests_cant": "unbounded sequences of times; the uninitialised previous time", "anchors": ["src/frydom/hydrodynamics/FrEquilibriumFrame.cpp: FrEqFrameMeanMotion, SetRecorders, SetPositionCorrection, Compute"]}
{"id": "C86", "title": "Hydrostatic equilibrium solver", "statement": "The equilibrium solver always answers within its maximum number of iterations; when it answers yes, buoyancy balances the weight, and their moments balance, within the tolerance; it never moves the body by more than the relaxation per iteration, nor horizontally; for wall-sided hulls the displacement is found. The answer depends only on the body and the settings. The displacement is also found for every hull whose water plane changes by less than a factor of two between the starting altitude and the equilibrium (and its mirror), and for every hull with flared sides, in a number of iterations that follows from the distance, the relaxation and the tolerance. (Defect: for a hull small compared with the relaxation the search may go to and fro across the equilibrium until it gives up.)", "quantifier": "all bodies, meshes, settings (mass, centre of gravity, tolerance, relaxation, iterations), histories of calls", "why_tests_cant": "termination and accuracy for every hull and history; uninitialised memory", "anchors": ["src/frydom/hydrodynamics/hydrostatic/FrHydroStaticEquilibrium.cpp: SolveDisplacement, SolveEquilibrium, SetMaxIterations, SetRelativeTolerance, SetLinearRelaxation"]}
{"id": "C87", "title": "Stiffness matrix of the equilibrium solver", "statement": "The stiffness matrix given by the equilibrium solver is the hydrostatic stiffness of the hull about the reduction point given, in either convention.", "quantifier": "all bodies, meshes, reduction points, conventions", "why_tests_cant": "continuum of positions", "anchors": ["src/frydom/hydrodynamics/hydrostatic/FrHydroStaticEquilibrium.cpp: GetHydrostaticMatrix"]}
{"id": "C88", "title": "Cable properties", "statement": "After any sequence of setter calls with positive sections, the getters of the cable properties describe one round cable: diameter and area agree, EA is the modulus times the area, the density times the area is the linear density; each setter is read back, SetEA and SetDensity keep the section, and a change of section keeps the modulus and the linear density (so EA set before a diameter is not kept). Breaking tensions up to DBL_EPSILON are refused.", "quantifier": "all values, all histories of setter calls", "why_tests_cant": "continuum of values, unbounded histories", "anchors": ["src/frydom/cable/FrCable.cpp: FrCableProperties"]}
{"id": "C89", "title": "Factory of cable properties (defect)", "statement": "make_cable_properties(diameter, linearDensity, youngModulus) does not build the cable it describes: the Young modulus is taken as diameter, the diameter as linear density and the linear density as Young modulus. It agrees with the constructor only if the three numbers are equal.", "quantifier": "all diameters, densities, moduli", "why_tests_cant": "for every value; the tests use the factory without arguments", "anchors": ["src/frydom/cable/FrCable.cpp: make_cable_properties"]}
{"id": "C90", "title": "Unrolling of a cable", "statement": "Whatever the instants at which a cable is computed, the order of speed and length changes and repeated computations at one instant, the unstrained length is the speed in force times the elapsed time added to the length; the clock starts at 0, the length has no lower limit, and steps under DBL_EPSILON are lost.", "quantifier": "all histories of speed changes, length changes, computations", "why_tests_cant": "unbounded histories", "anchors": ["src/frydom/cable/FrCable.cpp: FrCable::UpdateTime, UpdateState", "src/frydom/cable/FrCatenaryLine.cpp: Compute"]}
{"id": "C91", "title": "Catenary: shape", "statement": "The positions and tensions given by a catenary line are those of a cable in static equilibrium from its starting node: the tension balances the weight in the fluid, the tangent is along the tension, the elongation follows Hooke (none for a line that is not elastic), vertical lines included, in both conventions, at all times after the initialization and whether or not the solver has converged.", "quantifier": "all lines, tensions, abscissas, histories", "why_tests_cant": "differential equation along a continuum; transcendental functions", "anchors": ["src/frydom/cable/FrCatenaryLine.cpp: GetTension, GetUnstrainedChord, GetElasticIncrement, GetNodePositionInWorld, Initialize"]}
{"id": "C92", "title": "Catenary: loads on the bodies", "statement": "The line pulls its two bodies at its nodes, without couple, with the tension at its ends; the two pulls carry exactly the weight in the fluid of the line, and their moment about every point is that of the weight of the line.", "quantifier": "all lines, bodies, nodes, tensions, conventions", "why_tests_cant": "integral over a continuum, all placements", "anchors": ["src/frydom/cable/FrCatenaryForce.cpp: Compute", "src/frydom/cable/FrCatenaryLine.cpp: GetStartingNodeTension, GetEndingNodeTension"]}
{"id": "C93", "title": "Catenary: lengths", "statement": "The strained length given by a line lies between the distance of its ends and its stretched length. A line that is not elastic never reaches further than its unstrained length: with nodes too far apart every tension leaves a residual at least as large as the missing length over the square root of 3.", "quantifier": "all lines, tensions, lengths", "why_tests_cant": "for all tensions", "anchors": ["src/frydom/cable/FrCable.cpp: GetStrainedLength", "src/frydom/cable/FrCatenaryLine.cpp: get_residual"]}
{"id": "C94", "title": "Catenary: Jacobian matrix", "statement": "The matrix given to the Newton solver is the derivative of the residual with respect to the tension in every direction (unless the tension points straight down at an end); when the line is not vertical it is symmetric positive definite, so the Newton step exists.", "quantifier": "all lines, tensions, directions", "why_tests_cant": "derivatives, for all tensions", "anchors": ["src/frydom/cable/FrCatenaryLine.cpp: analytical_jacobian"]}
{"id": "C95", "title": "Catenary: solver", "statement": "The solver changes only the tension and the relaxation factor (which stays between 0 and 1), makes at least one step, and ends either within the tolerance or after its maximum number of steps; it returns whenever the inverses it uses are one-to-one; an exact solution is left as it is; for a line too short that is not elastic it always ends without convergence, and says nothing.", "quantifier": "all lines, settings, inverses", "why_tests_cant": "termination and exit state of nested loops for all states", "anchors": ["src/frydom/cable/FrCatenaryLine.cpp: solve"]}
{"id": "C96", "title": "Catenary: uniqueness and accuracy", "statement": "For an elastic line, or a line that is not vertical, at most one tension joins the nodes; the tension of an elastic line on which the solver reports success is within sqrt(3) tol EA / L of it, at every abscissa. Such a tension exists for every elastic line, wherever its nodes are, and for a line that is not elastic as soon as its nodes are closer than its length (which is also necessary, the distance equal to the length excepted): an elastic line has exactly one static equilibrium.", "quantifier": "all lines, pairs of tensions", "why_tests_cant": "nonlinear problem over a continuum of tensions", "anchors": ["src/frydom/cable/FrCatenaryLine.cpp: solve, get_residual"]}
{"id": "C97", "title": "Catenary: vertical lines (defect)", "statement": "For a line that is not elastic and hangs with slack straight below its starting node, the first guess makes the matrix of the Newton solver singular; for an elastic one the matrix lacks the pendulum term of the derivative.", "quantifier": "all lines, depths, slacks", "why_tests_cant": "for every line", "anchors": ["src/frydom/cable/FrCatenaryLine.cpp: guess_tension, analytical_jacobian"]}
{"id": "C98", "title": "Morison: load and law", "statement": "The load of a Morison model of any depth is the sum of the forces of its single elements, each applied at the centre of its element; on a body with the axes of the world each component of the force of an element along its axes is the documented quadratic law of the component of the relative flow (plus the documented inertial term if the element does not accelerate); whatever the attitude the drag never gives energy to the relative motion, and in still water it takes energy from the body.", "quantifier": "all trees of elements, bodies, attitudes, motions, flows", "why_tests_cant": "continuum of states, trees of unbounded depth", "anchors": ["src/frydom/hydrodynamics/morison/FrMorisonModel.cpp: FrMorisonSingleElement::Update, GetFlowVelocity, FrMorisonCompositeElement::Update", "src/frydom/hydrodynamics/morison/FrMorisonForce.cpp: Compute"]}
{"id": "C99", "title": "Morison: geometry and discretisation", "statement": "An element built between two points (or nodes) of a body has its centre in the middle, its third axis along the segment, its first axis orthogonal to the given direction, and the length and volume of the cylinder; a segment added as n elements has the same total length and volume, and in a uniform flow on a body at rest the same load (force and moment about every point) as one element. A direction parallel to the element is refused.", "quantifier": "all points, directions, numbers of elements, uniform flows, attitudes", "why_tests_cant": "for all n and all points", "anchors": ["src/frydom/hydrodynamics/morison/FrMorisonModel.cpp: SetFrame, FrMorisonSingleElement constructors, AddElement"]}
{"id": "C100", "title": "Morison: turned and accelerating bodies (defect)", "statement": "On a turned body the flow is projected with the rotation of the body applied twice: a plate on a body turned by a quarter turn, square to the flow, has no drag. With the inertial model the force lacks rho V times the acceleration of the element compared with the documented law.", "quantifier": "all coefficients, speeds, accelerations", "why_tests_cant": "for every value; the tests use unturned bodies", "anchors": ["src/frydom/hydrodynamics/morison/FrMorisonModel.cpp: GetFlowVelocity, GetFlowAcceleration, Update"]}
{"id": "C101", "title": "Morison: options of composite models (defect)", "statement": "Choosing on a composite model whether the current counts has no effect; for the elements it creates the choice is the content of uninitialised memory. The inertial option reaches the direct elements of the model at initialization, not those of composites inside it.", "quantifier": "all models, options, memory contents, currents", "why_tests_cant": "uninitialised memory, trees", "anchors": ["src/frydom/hydrodynamics/morison/FrMorisonModel.cpp: FrMorisonCompositeElement::Initialize, AddElement", "src/frydom/hydrodynamics/morison/FrMorisonModel.h: SetIncludeCurrent, m_includeCurrent"]}
{"id": "C102", "title": "ITTC resistance", "statement": "The resistance is a force at the centre of gravity along the longitudinal axis, of value 1/2 rho S Ct u^2 with Ct = (1+k) Cf + Cr + Ca + Caa + Capp and the ITTC-57 friction line, opposed to the longitudinal speed, the same ahead and astern, zero at rest, and increasing with the speed from the Reynolds number 100 e on; the coefficients set from roughness and area are those of ITTC-78.", "quantifier": "all hulls, speeds, attitudes", "why_tests_cant": "continuum of speeds, transcendental function", "anchors": ["src/frydom/hydrodynamics/wave_resistance/FrITTCResistance.cpp: Compute, SetRoughnessFromLength, SetAirResistanceFromArea", "src/frydom/environment/ocean/FrOcean.cpp: GetReynoldsNumberInWater"]}
{"id": "C103", "title": "ITTC resistance at low speed (defect)", "statement": "The friction line is used across its pole: at the Reynolds number 100 the resistance is infinite, and there are speeds below 101 nu / Lpp at which it is larger than any given number.", "quantifier": "all hulls, all bounds", "why_tests_cant": "limit at a pole", "anchors": ["src/frydom/hydrodynamics/wave_resistance/FrITTCResistance.cpp: Compute"]}
{"id": "C104", "title": "Quadrature of the memory integrals", "statement": "The quadrature used for the retardation integrals is, on every non-decreasing grid, the exact integral of the piecewise-linear function through the samples; it is linear; for an integrand of Lipschitz constant L its error is at most L h T, so that it vanishes with the step.", "quantifier": "all grids, sizes, samples, Lipschitz integrands", "why_tests_cant": "continuum of integrands, unbounded sizes", "anchors": ["src/frydom/hydrodynamics/seakeeping/linear/radiation/FrRadiationModel.cpp: TrapzLoc"]}
{"id": "C105", "title": "Masks of degrees of freedom of a database body", "statement": "Setting a mask on a new object gives the number, the flags and the increasing list of its active degrees of freedom and a matrix that expands a compressed vector to its places, exactly inverted by its transpose on active components. Setting a mask again appends to the list instead of replacing it (defect).", "quantifier": "all masks, all compressed vectors, all sequences of two settings", "why_tests_cant": "depends on the history of calls", "anchors": ["src/frydom/hydrodynamics/seakeeping/linear/hdb/FrBEMBody.cpp: FrBEMDOFMask::SetMask"]}
{"id": "C106", "title": "Loading of the coefficients of a body", "statement": "After loading, the diffraction, Froude-Krylov, excitation, added mass and impulse response coefficients of a degree of freedom (pair) are those of the file at its place among the active ones, zero for inactive ones; excitation is the sum of diffraction and Froude-Krylov; the hydrostatic stiffness kept is that of heave, roll, pitch. The number of motion modes loaded is that of the force modes (defect).", "quantifier": "all files, masks, angles, frequencies, times", "why_tests_cant": "unbounded tables, all masks", "anchors": ["src/frydom/hydrodynamics/seakeeping/linear/hdb/FrHydroDB.cpp: ReadMask, ReadExcitation, ReadRadiation, ReadHydrostatic, ReadModes", "src/frydom/hydrodynamics/seakeeping/linear/hdb/FrBEMBody.cpp: ComputeExcitation"]}
{"id": "C107", "title": "Discretizations of the database", "statement": "A grid of at least two samples starts at its minimum, ends at its maximum and is uniform with the announced step; setting a step delta gives a step in [delta, 2 delta), delta exactly when it divides the range, and a division by zero when larger than the range; directions in radians and NED are those in degrees and NWU converted.", "quantifier": "all grids and steps", "why_tests_cant": "continuum of ranges and steps", "anchors": ["src/frydom/hydrodynamics/seakeeping/linear/hdb/FrHydroDB.cpp: FrDiscretization1D, GetWaveDirections"]}
{"id": "C108", "title": "Mapping between database bodies and bodies", "statement": "After any sequence of mappings without repetition both directions of the mapping are inverse of each other and give the frames that were mapped, and nothing else is mapped; mapping a database body a second time leaves the first body mapped, with the frame of the second (defect).", "quantifier": "all sequences of mappings", "why_tests_cant": "all histories of calls", "anchors": ["src/frydom/hydrodynamics/seakeeping/linear/hdb/FrHydroMapper.cpp: Map, GetBody, GetBEMBody, GetEquilibriumFrame"]}
{"id": "C109", "title": "Interpolation of the coefficients", "statement": "The coefficient used for a wave is the bilinear interpolation of the four database coefficients around its direction (reduced to a turn) and frequency, the database one at a node, never larger than the largest of the database; waves of every direction are covered exactly when the directions go from at most 0 to at least a full turn.", "quantifier": "all databases, directions, frequencies", "why_tests_cant": "continuum of directions and frequencies", "anchors": ["src/frydom/hydrodynamics/seakeeping/linear/excitation/FrLinearHDBForce.cpp: BuildHDBInterpolators, GetHDBInterp"]}
{"id": "C110", "title": "Linear excitation load", "statement": "The load is applied at the centre of gravity, and its components in the axes of the equilibrium frame are the linear response to the sea at the place of that frame (for a regular wave: amplitude times modulus of the coefficient, at the frequency of the wave); it is proportional to the waves and is the sum of the diffraction and Froude-Krylov loads. A second initialization does not refresh the coefficients (defect).", "quantifier": "all seas, databases, frames, bodies", "why_tests_cant": "continuum of states", "anchors": ["src/frydom/hydrodynamics/seakeeping/linear/excitation/FrLinearHDBForce.cpp: Initialize, Compute_F_HDB", "src/frydom/hydrodynamics/seakeeping/linear/excitation/FrLinearExcitationForce.cpp: Compute"]}
{"id": "C111", "title": "Heading and excitation (defect)", "statement": "The coefficients are chosen with the direction of the waves in the world: two equilibrium frames at the same place, whatever their headings, get the same components of the load in their own axes.", "quantifier": "all seas, databases, headings", "why_tests_cant": "for all headings", "anchors": ["src/frydom/hydrodynamics/seakeeping/linear/excitation/FrLinearHDBForce.cpp: GetHDBInterp, Compute_F_HDB"]}
{"id": "C112", "title": "Masked excitation (defect)", "statement": "The masks are applied twice: for a body whose first n degrees of freedom are inactive, n the number of active ones (e.g. heave and pitch only), the excitation load is null in every sea.", "quantifier": "all such masks, coefficients and seas", "why_tests_cant": "for all seas", "anchors": ["src/frydom/hydrodynamics/seakeeping/linear/excitation/FrLinearHDBForce.cpp: Compute_F_HDB", "src/frydom/hydrodynamics/seakeeping/linear/hdb/FrHydroDB.cpp: ReadExcitation"]}
{"id": "C113", "title": "Wave drift load", "statement": "The drift load is applied at the centre of gravity in the axes of the body, each component being the sum over the waves of the squared amplitude times the coefficient at the relative direction and encounter frequency (the rate of the phase seen from the moving frame); it is quadratic in the waves and independent of their phases and of the place.", "quantifier": "all seas, tables, frames", "why_tests_cant": "continuum of states", "anchors": ["src/frydom/hydrodynamics/seakeeping/linear/second_order_drift/FrWaveDriftForce.cpp: Compute, GetRelativeWaveDir, GetEncounterWaveFrequencies"]}
{"id": "C114", "title": "Wave drift load: ramp and angles (defect)", "statement": "The drift load ignores the ramp of the wave field (full load while there is no elevation), and reads its table at a negative angle when the wave direction is below the heading, out of a table covering a full turn.", "quantifier": "all seas, frames, tables", "why_tests_cant": "for all headings and seas", "anchors": ["src/frydom/hydrodynamics/seakeeping/linear/second_order_drift/FrWaveDriftForce.cpp: Compute, GetRelativeWaveDir"]}
{"id": "C115", "title": "Radiation load", "statement": "After an update the radiation load of a body at rest on average is minus the sum, over the bodies and their active motions, of the memory integral of the impulse response on the recorded past velocity, in the axes of its equilibrium frame, applied at the centre of gravity; it differs from the true convolution by at most L step duration; it is null for bodies that never moved, and obeys superposition; a table as long as the memory is never left.", "quantifier": "all numbers of bodies, histories of motion, schedules of updates, databases", "why_tests_cant": "all histories, unbounded", "anchors": ["src/frydom/hydrodynamics/seakeeping/linear/radiation/FrRadiationModel.cpp: FrRadiationConvolutionModel::Compute", "src/frydom/hydrodynamics/seakeeping/linear/radiation/FrRadiationForce.cpp"]}
{"id": "C116", "title": "Memory of the radiation model", "statement": "The default memory lasts pi over the frequency step of the database, and the step of the memory divides it into whole steps larger than the time step; at the first update the load is null; an update at the time of the system changes nothing. If the period is below one time step the number of steps wraps around, if it is exactly one the step is infinite (defect). Whatever the order of the settings, each body keeps the size last asked for it, else the one last asked for all bodies, and Clear empties the memories and keeps their sizes.", "quantifier": "all time steps, frequency steps, states", "why_tests_cant": "wrap-around, all steps", "anchors": ["src/frydom/hydrodynamics/seakeeping/linear/radiation/FrRadiationModel.cpp: GetImpulseResponseSize, Initialize, Compute"]}
{"id": "C117", "title": "Radiation with forward speed (defect)", "statement": "The forward speed load of a body is that of all the bodies together; it does not distinguish forward from backward speed; setting a mask twice doubles the radiation load.", "quantifier": "all models, speeds", "why_tests_cant": "for all bodies and speeds", "anchors": ["src/frydom/hydrodynamics/seakeeping/linear/radiation/FrRadiationModel.cpp: ConvolutionKu, Compute"]}
{"id": "C118", "title": "Inertia part of the radiation load", "statement": "The inertia part is minus the infinite added mass on the accelerations of all the bodies, in body axes, and its getters project it; in NED the getter in the world is right only for longitudinal vectors (defect).", "quantifier": "all added masses, accelerations, attitudes", "why_tests_cant": "continuum of states", "anchors": ["src/frydom/hydrodynamics/seakeeping/linear/radiation/FrRadiationModel.cpp: FrRadiationConvolutionModel::GetRadiationInertiaPart", "src/frydom/hydrodynamics/seakeeping/linear/radiation/FrRadiationForce.cpp: getters"]}
{"id": "C119", "title": "Generalized mass with added mass", "statement": "The blocks kept by the model are those of the inverse of mass plus infinite added mass; the accelerations computed for loaded bodies satisfy the equations of motion of the coupled system; momentum, increments and the residual are consistent with the same matrix.", "quantifier": "all numbers of bodies, masses, added masses, loads", "why_tests_cant": "all sizes", "anchors": ["src/frydom/hydrodynamics/seakeeping/linear/radiation/FrVariablesBEMBodyBase.cpp: Compute_invMb_v, Compute_inc_Mb_v", "src/frydom/hydrodynamics/seakeeping/linear/radiation/FrRadiationModelBase.cpp: BuildGeneralizedMass, IntLoadResidual_Mv"]}
{"id": "C120", "title": "Generalized mass: limits (defect)", "statement": "The inverse is not updated when a mass changes; an inactive body is treated as free and unloaded; whether the loads of the other bodies count is guessed from the values, so that the operator is not linear; the product with a vector of the system reads its first six entries whatever the place of the body.", "quantifier": "all masses, loads, offsets", "why_tests_cant": "for all values", "anchors": ["src/frydom/hydrodynamics/seakeeping/linear/radiation/FrVariablesBEMBodyBase.cpp: Compute_invMb_v, MultiplyAndAdd"]}
{"id": "C121", "title": "Nonlinear Froude-Krylov load", "statement": "For every mesh the load is that of the pressure forces of its triangles at their centroids (force and moment about every point); no waves, no load; a uniform pressure on a closed mesh gives none; a pressure linear in space gives exactly minus the volume times its gradient.", "quantifier": "all meshes, pressure fields, bodies", "why_tests_cant": "unbounded meshes, all fields", "anchors": ["src/frydom/hydrodynamics/seakeeping/linear/excitation/FrNonLinearFroudeKrylovForce.cpp: Compute", "src/frydom/mesh/FrHydroMesh.cpp"]}
{"id": "C122", "title": "Ocean services: mean level, sea bed, depth, fluid at a point, numbers", "statement": "Whatever the history of updates, wave fields, shown or hidden free surface and sea beds, the tide of an ocean stays null in both conventions, the free surface is at the wave elevation and the depth in NWU is minus the altitude of the bottom; a bathymetry is read back as set, opposite in the other convention; the fluid found at a point does not depend on the convention; Reynolds and Froude numbers are the documented ones, even in the velocity. Defects: asked in NED the depth is the opposite of the depth; in a new atmosphere the Reynolds number is a division by zero.", "quantifier": "all histories of events, all places, velocities, lengths", "why_tests_cant": "all histories", "anchors": ["src/frydom/environment/ocean/freeSurface/tidal/FrTidalModel.cpp: FrTidal", "src/frydom/environment/ocean/freeSurface/FrFreeSurface.cpp: GetPosition, Update, ShowFreeSurface", "src/frydom/environment/ocean/FrOcean.cpp: GetDepth, GetReynoldsNumberInWater", "src/frydom/environment/ocean/seabed/FrSeabed.cpp", "src/frydom/environment/FrEnvironment.cpp: GetFluidTypeAtPointInWorld"]}
{"id": "C123", "title": "Tide by the twelfth rule", "statement": "For two extrema the table goes from the first instant to the second in six equal steps, the level changing by 1,2,3,3,2,1 twelfths of the range, and ends at the second level exactly when the declared level agrees with the heights; hours, minutes and seconds agree. Defects: no time without seconds, at a whole minute or hour or after midnight can be built; a tide made from extrema writes through a null pointer at its first update, and the time of the update is ignored.", "quantifier": "all extrema, times", "why_tests_cant": "for all times and heights", "anchors": ["src/frydom/environment/ocean/freeSurface/tidal/FrTidalModel.cpp: FrUTCTime, FrTidal, BuildTwelfthRuleTable, Update"]}
{"id": "C124", "title": "Geographic services", "statement": "For every origin and convention geographic and cartesian coordinates are converted to and fro without loss, the origin being the origin of the world; the position of a place in NED is the NED form of that in NWU; the magnetic field is the same vector in both, its declination that of the model; the eight compass directions are unit, in clockwise order by eighths of a turn.", "quantifier": "all origins, places, years, conventions", "why_tests_cant": "continuum of places", "anchors": ["src/frydom/environment/geographicServices/FrGeographicServices.cpp", "src/frydom/core/math/FrVector.cpp: NORTH, NORTH_EAST, EAST"]}
{"id": "C125", "title": "Date and time", "statement": "After an update at a simulation time below 2^31 s the clock is the starting time plus the simulation time rounded down to the millisecond and never goes back; after initialization the UTC time is what was set. Defects: the conversion overflows from 2^31 s; the time of a zone is never converted, so that a simulation started at a zoned time reports as UTC its local clock; the time of a zone throws during clock changes.", "quantifier": "all times, zones, starting dates", "why_tests_cant": "all schedules and zones", "anchors": ["src/frydom/environment/time/FrTimeServices.cpp: SetStartingTime, SetStartingDay, Initialize, Update", "src/frydom/environment/time/FrTimeServices.h: GetTime, GetUTCTime"]}
{"id": "C126", "title": "Zoned clock", "statement": "In UTC mode the UTC time, in local mode the local time, is the day and time set plus the elapsed time (or an exception when that clock does not exist); local time is UTC time plus the offset; broken-down fields are in range and give the time back to the second. Defect: a day set before choosing UTC is not used.", "quantifier": "all zones, days, times, modes", "why_tests_cant": "all schedules and zones", "anchors": ["src/frydom/environment/time/FrTimeZone.cpp: SetZoneDayTime, Initialize, Update, UTC_to_tm"]}
{"id": "C127", "title": "Bodies made as boxes, cylinders, spheres", "statement": "A body made by the library as a box, a cylinder or a sphere (and a mooring buoy) has exactly the mass, centre of gravity and inertia of the homogeneous solid of those dimensions (integrals over the solid), the cylinder having its axis along y.", "quantifier": "all dimensions and masses", "why_tests_cant": "integrals over a continuum of dimensions", "anchors": ["src/frydom/core/body/FrBodyEasy.cpp: makeItBox, makeItCylinder, makeItSphere", "src/frydom/cable/FrMooringBuoy.cpp: FrMooringBuoy"]}
{"id": "C128", "title": "Mooring buoy", "statement": "After an update the volume of a buoy is the volume of the part of the ball below the free surface; it decreases with the altitude, from that of the ball to zero; the hydrostatic load is the weight of the water displaced, upwards at the centre of gravity; a buoy lighter than its water has exactly one, stable, flotation altitude, a heavier one none. Defect: the force applied in an update is that of the previous position (memory content at the first). The buoy built is a homogeneous ball of the given mass and radius, its damping is minus the coefficient times the velocity and the spin over the ground.", "quantifier": "all radii, positions, levels, sequences of updates", "why_tests_cant": "volume integrals, all schedules", "anchors": ["src/frydom/cable/FrMooringBuoy.cpp: computeDraft, Compute, Update", "src/frydom/cable/FrMooringBuoy.h: computeVolume", "src/frydom/core/body/FrBody.cpp: FrBodyBase::Update"]}
{"id": "C129", "title": "Assemblies of bodies", "statement": "In every history of additions and removals bodies are counted as many times as added and not removed; the tensor of an assembly is that of all the masses of its bodies at their places in the world, seen from the master; it does not depend on the order. Defects: a body added twice (or the master added) is counted twice; the master is free after DoAssembly even if it was fixed.", "quantifier": "all histories, numbers of bodies, positions and attitudes", "why_tests_cant": "unbounded numbers of bodies, all histories", "anchors": ["src/frydom/core/body/FrAssembly.cpp: AddToAssembly, RemoveFromAssembly, GetInertiaTensor, DoAssembly"]}
{"id": "C130", "title": "Planes: distance, intersection, closest point", "statement": "The distance returned between a plane attached to a node and a point is the coordinate of the point along the normal and its square the least squared distance to the points of the plane; the intersection with a line that is not parallel is the one point on both, whatever the two points giving the line; the closest point is in the plane and strictly closer than every other point of it. In both conventions.", "quantifier": "all node positions and attitudes, axes, points, lines, both conventions", "why_tests_cant": "minimum over a continuum", "anchors": ["src/frydom/core/link/constraint/FrCGeometrical.cpp: FrCPlane"]}
{"id": "C131", "title": "Reactions of the geometrical constraints", "statement": "For the parallel, perpendicular, plane-on-plane, point-on-plane and point-on-line constraints, force in body 1 and torque at the COG of body 1 are the reaction returned in the world (same force, same moment about every point). Defect: for the distance constraints the quantities named \"body 1\" are in the axes and about the COG of body 2.", "quantifier": "all positions and attitudes of both bodies, reactions, points, conventions", "why_tests_cant": "a continuum of configurations", "anchors": ["src/frydom/core/link/constraint/FrConstraint.cpp: GetForceInBody1, GetTorqueInBody1AtCOG, GetForceInWorld, GetTorqueInWorldAtConstraint, Initialize"]}
{"id": "C132", "title": "Point-on-line constraint", "statement": "For each of the three axis labels the frame handed to the solver makes it keep the point exactly on the axis asked for.", "quantifier": "all attitudes of the node, all points", "why_tests_cant": "a continuum of configurations", "anchors": ["src/frydom/core/link/constraint/FrConstraint.cpp: FrConstraintPointOnLine::Initialize"]}
{"id": "C133", "title": "Motors impose what they are told", "statement": "An angular position motor imposes exactly the angle given, about the axis of node 1. Defects: a linear motor imposes the opposite position and speed; clamping a prismatic link moves it to its opposite position; clamping a revolute link keeps a positive angle but turns a negative one to its opposite.", "quantifier": "all positions of bodies and nodes, commands, times", "why_tests_cant": "a continuum of configurations", "anchors": ["src/frydom/core/link/links_lib/actuators/FrLinearActuator.cpp: Initialize", "src/frydom/core/link/links_lib/actuators/FrAngularActuator.cpp: Initialize", "src/frydom/core/link/links_lib/FrPrismaticLink.cpp: Clamp", "src/frydom/core/link/links_lib/FrRevoluteLink.cpp: Clamp"]}
{"id": "C134", "title": "Motor and spring-damper loads", "statement": "On a satisfied joint the loads of a motor, and of a spring-damper, returned for the two bodies are opposite (forces, moments about every point) in both conventions; the spring-damper load on body 2 is minus the law along the axis. Defect: motor loads returned in NED have the wrong sign.", "quantifier": "all positions, laws, points, conventions", "why_tests_cant": "a continuum of configurations", "anchors": ["src/frydom/core/link/links_lib/actuators/FrActuator.cpp: GetMotorForceInBody1, GetMotorForceInBody2, GetMotorTorqueAtCOGInBody1, GetMotorTorqueAtCOGInBody2", "src/frydom/core/link/links_lib/FrLink.cpp: SetLinkForceTorqueOnBody2InFrame2AtOrigin2, GetSpringDamperForceOnBody1"]}
{"id": "C135", "title": "Motors in the life of a link", "statement": "In every history where a link is motorized only while it has no motor, exactly its present motor is in the system; breaking a breakable link switches its motor off. Defects: motorizing twice leaves a motor in the system for ever that no operation reaches; clamping or enabling a broken link drives it again; the spring-damper never comes back once the link had a motor.", "quantifier": "all histories of public operations", "why_tests_cant": "unbounded histories", "anchors": ["src/frydom/core/link/links_lib/FrPrismaticLink.cpp: Motorize, Clamp", "src/frydom/core/link/links_lib/FrRevoluteLink.cpp: Motorize, Clamp", "src/frydom/core/link/links_lib/FrLink.cpp: SetDisabled, SetBroken, IsMotorized"]}
{"id": "C136", "title": "Joints", "statement": "Each joint type (fixed, spherical, revolute, prismatic, cylindrical, prismatic-revolute, free) lets exactly the relative motions of its name.", "quantifier": "all relative positions and attitudes", "why_tests_cant": "a continuum of configurations", "anchors": ["src/frydom/core/link/links_lib/FrLink.cpp: BuildLinkType", "src/frydom/core/link/FrDOFMask.cpp"]}
{"id": "C137", "title": "Constraints between bodies with added mass", "statement": "For a constraint between two active bodies of the hydrodynamic database the number used by the solver is the acceleration of the constraint under a unit multiplier in the coupled equations of motion of all the bodies, plus the compliance (also with a body outside the database); with a positive kinetic energy it is positive. Defects: if a Jacobian row equals the load of its body the loads of all the bodies enter it; with a fixed body it is that of a body free to move.", "quantifier": "all numbers of bodies, mass and added mass matrices, Jacobians, loads", "why_tests_cant": "all sizes and matrices", "anchors": ["src/frydom/core/link/constraint/FrConstraintTwoBodiesBase.cpp: Update_auxiliary", "src/frydom/hydrodynamics/seakeeping/linear/radiation/FrVariablesBEMBodyBase.cpp: Compute_invMb_v, Compute_inc_invMb_v"]}
{"id": "C138", "title": "Colour scale of a drawn line", "statement": "With no scale given by the user and at least nine drawn elements (default forty), the top of the colour scale of a catenary line is at least the tension at every point of the line, the end included, and 1.25 times the tension of one of its points. With two to eight elements it may be exceeded.", "quantifier": "all lines, loads, tensions, lengths, numbers of elements", "why_tests_cant": "a bound for every point of every line", "anchors": ["src/frydom/asset/FrCatenaryLineAsset.cpp: InitMaxTension, InitRangeTensionColor"]}
{"id": "C139", "title": "Drawing of a catenary line", "statement": "With n >= 2 elements, the drawing of a line cuts it into n equal abutting pieces and is at every step the polyline through the current start and the current points at the multiples of L/n. Defects: with a single element the initialization reads the back of an empty vector; after unrolling, the drawing ends at the abscissa of the length at initialization, not at the end of the line.", "quantifier": "all lengths, numbers of elements, later states of the line", "why_tests_cant": "loop over a real abscissa, any number of elements, any later state", "anchors": ["src/frydom/asset/FrCatenaryLineAsset.cpp: Initialize, StepFinalize"]}
{"id": "C140", "title": "Point and tension of a dynamic cable at an abscissa", "statement": "For every abscissa from 0 to the unstretched length, the element and local coordinate read are those of that abscissa, so the position is that of the mesh nodes at the nodes, the two ends included; the tension is along the element, from start to end. Defects: a negative abscissa passes the assertion and reads an element that does not exist; changing the number of elements after the initialization shifts every later reading.", "quantifier": "all cables, numbers of elements, abscissas, histories of setter calls", "why_tests_cant": "every real abscissa, boundaries of elements included", "anchors": ["src/frydom/cable/FrDynamicCable.cpp: GetTension, GetNodePositionInWorld, GetElement, SetNumberOfElements"]}
{"id": "C141", "title": "Target element length", "statement": "SetTargetElementLength(e) gives n elements with e <= L/n < 2e, and n >= 1, for every 0 < e < L; other values are refused.", "quantifier": "all lengths and targets", "why_tests_cant": "every real target", "anchors": ["src/frydom/cable/FrDynamicCable.cpp: SetTargetElementLength"]}
{"id": "C142", "title": "Initial mesh of a dynamic cable", "statement": "Initialization makes n+1 nodes and n elements joining consecutive nodes. For a cable at least as short as the distance of its ends the nodes are on the straight line, spaced by L/n from the starting node; for a slack one they are the points of the catenary line at the multiples of L/n, each with an orthonormal right-handed triad whose first axis is the tension (the catenary stays in a vertical plane). The distance between nodes never exceeds L/n on an inextensible line. A second initialization changes nothing.", "quantifier": "all cables, positions of the ends, numbers of elements", "why_tests_cant": "all configurations and sizes", "anchors": ["src/frydom/cable/FrDynamicCable.cpp: Initialize"]}
{"id": "C143", "title": "Hinges of a dynamic cable", "statement": "A spherical hinge constrains the position and a constrained hinge also the orientation of the end of the mesh relative to the node of the body. Holds iff the centre of gravity of the body is at its reference point: otherwise the hinge is off the node by the position of the centre of gravity (defect), and the initial mesh does not satisfy it.", "quantifier": "all bodies, positions, orientations, centres of gravity, nodes", "why_tests_cant": "all poses and mass distributions", "anchors": ["src/frydom/cable/FrDynamicCable.cpp: InitializeHinges, HingeMask"]}
{"id": "C144", "title": "Section and statics of a dynamic cable", "statement": "The section built has the axial stiffness EA and mass per metre of the cable properties, and the bending stiffness of the solid circular section; the static residual is zero iff every node is at rest, and relaxing the cable brings it there.", "quantifier": "all cable properties, all node velocities", "why_tests_cant": "all values and numbers of nodes", "anchors": ["src/frydom/cable/FrDynamicCable.cpp: InitializeSection, GetStaticResidual, Relax"]}
{"id": "C145", "title": "The temporary line of a slack dynamic cable leaves no trace", "statement": "Initializing a slack dynamic cable leaves in the system, on the bodies and in the log what was there before. Defect: the name of the temporary line stays registered, so the initialization of a second slack dynamic cable throws and leaves its line in the system.", "quantifier": "all histories of the system, all cables", "why_tests_cant": "all histories of calls", "anchors": ["src/frydom/cable/FrDynamicCable.cpp: Initialize", "src/frydom/cable/FrCatenaryLine.cpp: Initialize"]}
{"id": "C146", "title": "Locked degrees of freedom of a body", "statement": "A body with locked degrees of freedom meets its lock where it is initialized, whatever its pose and centre of gravity. Afterwards, translations locked: the lock holds iff the point that was the centre of gravity has not gone along the locked axes, which are the axes the body had at the initialization (not those of the world). LockXYPlane (LockXZPlane): iff the axis z (y) of the body has kept its direction and that point its distance along it. Everything locked: iff no point of the body has moved.", "quantifier": "all bodies, poses, centres of gravity, masks, later states of the body", "why_tests_cant": "all poses and later motions", "anchors": ["src/frydom/core/body/FrBody.cpp: FrBody::InitializeLockedDOF", "src/frydom/core/link/links_lib/FrDOFMaskLink.cpp"]}
{"id": "C147", "title": "Initialization and steps of a system", "statement": "The first initialization (explicit or by the first step) goes through the environment, then every object of the system exactly once in the order pre-physics items, bodies, links, constraints, actuators, FEA meshes, with every force and node of a body after the body, objects made on the way included, logs last; without ForceInitialize nothing is ever initialized twice; each step (smooth contacts) tells the time to the environment and finalizes the environment and every object, force and node exactly once, in the same order, before the logs. Defects: what is added after the initialization is never initialized; once a system with a body that has locked degrees of freedom was initialized, ForceInitialize always throws.", "quantifier": "all histories of calls, all objects", "why_tests_cant": "unbounded histories of additions, removals, initializations and steps", "anchors": ["src/frydom/core/FrOffshoreSystem.cpp: Initialize, ForceInitialize, StepFinalize, AdvanceOneStep", "src/frydom/core/body/FrBody.cpp: Initialize, StepFinalize, InitializeLockedDOF"]}
{"id": "C148", "title": "Rows of the logs", "statement": "Two messages of logged objects never share a file. After an initialization during which the object was in the system and logged, m steps write exactly m rows in the file of each of its messages. Defects: after k initializations (ForceInitialize) each step writes k(k+1)/2 rows; an object added, or set to be logged, after the initialization never writes anything; SetLogFrameConvention only reaches the objects present at the call.  Without a call of SetLogFrameConvention everything is logged in NWU.", "quantifier": "all histories of calls, all objects, messages, names", "why_tests_cant": "unbounded histories", "anchors": ["src/frydom/logging/FrLogManager.cpp: Initialize, StepFinalize, SetLogFrameConvention", "src/frydom/logging/FrLoggable.cpp: StepFinalizeLog, NewMessage"]}
{"id": "C149", "title": "Non smooth contacts", "statement": "A system with non smooth contacts is simulated, finalized and logged like one with smooth contacts. False: its time goes on but nothing is ever finalized or logged and the environment never learns the time; and SetSystemType on a built system empties it, world body included, while the logs of the former objects go on being written.", "quantifier": "all histories of calls", "why_tests_cant": "unbounded histories", "anchors": ["src/frydom/core/FrOffshoreSystem.cpp: SetSystemType, Clear, Integrate_Y", "src/frydom/core/FrOffshoreSystem.h: FrSystemBaseNSC"]}
{"id": "C150", "title": "Cartesian grid of the free surface and the sea bed", "statement": "The mesh of a Cartesian grid has as vertices exactly the points of the grid of the given steps, all at the grid height; its triangles are non degenerate, all turned upwards, cover exactly one rectangle and overlap only on edges. That rectangle is the asked one only if the steps divide its sides: otherwise the strip at the end of each range is not drawn.", "quantifier": "all ranges and steps", "why_tests_cant": "a continuum of points, ranges and steps", "anchors": ["src/frydom/asset/FrGridAsset.cpp: BuildRectangularMeshGrid, SetGrid"]}
{"id": "C151", "title": "Polar grid of the free surface and the sea bed", "statement": "The mesh of a polar grid is made of nbR circles of nbTheta nodes around the centre; its triangles cover exactly the regular polygon with those corners (inside the asked disc, and all of the inscribed disc) and overlap only on edges. Defect: only the nodes of the first ray and the centre are at the grid height, all others are at 0.", "quantifier": "all centres, diameters, numbers of circles and rays, heights", "why_tests_cant": "a continuum of points, unbounded numbers of nodes", "anchors": ["src/frydom/asset/FrGridAsset.cpp: BuildPolarMeshGrid"]}
{"id": "C152", "title": "Building and redrawing of the grid", "statement": "After any settings, the initialization draws the mesh of the last grid asked for, or nothing; with an update step n the vertices are moved to the free surface above them exactly at the steps that are multiples of n, and without one, never. Defect: SetNoGrid followed by SetUpdateStep(n) uses a null mesh at step n.", "quantifier": "all histories of settings, initializations and steps, all free surfaces", "why_tests_cant": "unbounded histories", "anchors": ["src/frydom/asset/FrGridAsset.cpp: Initialize, UpdateAssetON, UpdateAssetOFF, SetUpdateStep, SetNoGrid", "src/frydom/asset/FrFreeSurfaceGridAsset.cpp: StepFinalize"]}
{"id": "C153", "title": "Assets and shapes of a body", "statement": "After any history of calls the assets refreshed at each step are exactly the assets drawn, once each; removing an asset undoes its addition; the shapes read are those asked for with their sizes; the asset of a force is drawn between its initialization and its removal. Defects: RemoveAssets() does not forget the shapes read; a force shown but not initialised cannot be removed, and a shown force that was removed cannot be initialised again.", "quantifier": "all histories of calls, all shapes and assets", "why_tests_cant": "unbounded histories", "anchors": ["src/frydom/asset/FrAssetOwner.cpp: AddAsset, RemoveAsset, RemoveAssets, UpdateAsset, Add*Shape, Get*Shapes", "src/frydom/core/force/FrForce.cpp: ShowAsset, Initialize", "src/frydom/core/body/FrBody.cpp: RemoveExternalForce"]}
{"id": "C154", "title": "Arrow of a force and axes of a node", "statement": "Whatever happened before, the arrow drawn for a force has the direction of the force in the world and its length times the size, and the axes drawn for a node are its frame in the world. Defect: the application point of a force is never recorded, so the arrow starts at the reference point of the body wherever the force is applied and GetForceApplicationPointInWorld is always the origin of the world.", "quantifier": "all histories of calls on forces, bodies and nodes", "why_tests_cant": "unbounded histories, a continuum of poses", "anchors": ["src/frydom/asset/FrForceAsset.cpp: StepFinalize", "src/frydom/asset/FrNodeAsset.cpp: Initialize, StepFinalize", "src/frydom/core/force/FrForce.cpp: GetForceApplicationPointInWorld, GetForceApplicationPointInBody"]}
{"id": "C155", "title": "Settings of a system and gravity", "statement": "After any settings that do not change its type, a system has the gravity, steps, time, solver, time stepper and numbers of iterations last asked for, else those of its constructor; contact settings too if it is smooth, and a non smooth system ignores them; every body weighs its mass times the gravity read, downwards. Defects: a negative gravity is read as positive while bodies weigh upwards; changing the type of the system, even to the same one, forgets every setting, and with the default gravity of Chrono bodies then weigh horizontally while the gravity read is 0.", "quantifier": "all histories of settings", "why_tests_cant": "unbounded histories", "anchors": ["src/frydom/core/FrOffshoreSystem.cpp: constructor, SetSystemType, SetSolver, SetTimeStepper, SetTimeStep, SetGravityAcceleration, GetGravityAcceleration", "src/frydom/environment/FrEnvironment.cpp: constructor"]}
{"id": "C156", "title": "Loop of the viewer", "statement": "Run in the viewer with a positive end time, a simulation stops at the first step after it, at most one step later; with no positive end time it makes one step each time the window is open. Defects: one step is made even if the end time is already passed, and one step too many if the end time is a whole number of steps away.", "quantifier": "all start times, end times, steps, numbers of frames", "why_tests_cant": "unbounded loops, a continuum of times", "anchors": ["src/frydom/utils/FrIrrApp.cpp: Run"]}
{"id": "C157", "title": "Camera of the viewer", "statement": "After any history of events, calls and frames, the camera is at the distance of its zoom from its target and the picture is upright. Turning by dragging gives the position of the two angles dragged, kept on release; a key held moves the target once. Defects: a camera placed with setPosition and setTarget is seen on the other side of its target along y; on release of a zoom by dragging the picture jumps, and the wheel, like the release, ignores the limits of the zoom and goes through the target.", "quantifier": "all histories of events, calls and frames, all positions", "why_tests_cant": "unbounded histories, a continuum of positions", "anchors": ["src/frydom/utils/FrIrrCamera.cpp: animate, OnEvent, setPosition, setTarget, updateAnimationState", "src/frydom/utils/FrIrrApp.cpp: AddCustomCamera"]}
{"id": "C158", "title": "Configuration file", "statement": "The configuration file of the current directory is used, else that of the home directory, and the log and data folders it declares are those read. Defects: without any file, or with one that does not parse, no system can be created (the fallback to the current directory is never observed); a folder not declared is empty instead of the current directory.", "quantifier": "all contents of the two files", "why_tests_cant": "unbounded JSON values", "anchors": ["src/frydom/utils/FrConfig.cpp: FrConfig, LookForConfigFile"]}
{"id": "C159", "title": "Creation of folders and log folder", "statement": "Asked for a folder, mkdir creates exactly the missing folders of the path and changes nothing else, or the program exits, exactly when the deepest existing path above is a file or a folder where nothing can be created. Two systems log into the same folder exactly when they are created at the same local second (defect). Defect: mkdir of a path that is a file answers true.", "quantifier": "all file systems and paths, all dates", "why_tests_cant": "unbounded trees and depths", "anchors": ["src/frydom/utils/FrFileSystem.cpp: mkdir", "src/frydom/logging/FrLogManager.cpp: FrLogManager, GetDateFolder"]}
{"id": "C160", "title": "Accelerations of a body", "statement": "Along every motion of a body, for every point fixed in it (also the COG, the reference point and nodes), in both conventions, the velocity returned is the derivative of the position returned and the acceleration returned is the derivative of that velocity; the same for angular velocity and acceleration. Accelerations set at the COG are returned and give every point the acceleration a + alpha x r + omega x (omega x r), without changing position or velocity. Defects: SetAcceleration...NoRotation on a spinning body, or a speed set after the accelerations, leaves point accelerations that lack a part of the centripetal term.", "quantifier": "all twice differentiable motions, points, spins, accelerations and conventions", "why_tests_cant": "ranges over functions of real time", "anchors": ["src/frydom/core/body/FrBody.cpp: SetAccelerationInWorldNoRotation, GetAccelerationInWorldAtPointInBody, SetAngularAccelerationInWorld, GetAngularAccelerationInWorld, SetGeneralizedAccelerationIn*AtCOG", "src/frydom/core/common/FrNode.cpp: GetAccelerationInWorld"]}
{"id": "C161", "title": "Total external load and removed gravity", "statement": "The total force read on a body is the sum of the forces applied to it and of its weight, and the total torque the sum of their moments about the COG, in world and body axes. After RemoveGravity(true) a body of unchanged mass under a gravity of 9.81 is weightless whatever moves are made before or after, and RemoveGravity(false) gives its weight back. Defects: a second RemoveGravity(true), another gravity or a later change of mass leaves a vertical force.", "quantifier": "all lists of loads, all histories of moves and calls", "why_tests_cant": "unbounded histories and lists", "anchors": ["src/frydom/core/body/FrBody.cpp: GetTotalExtForceInWorld, GetTotalExtTorqueInBodyAtCOG, RemoveGravity"]}
{"id": "C162", "title": "Speed limits of a body", "statement": "With active speed limits, the speeds of translation and rotation set by the solver never exceed the limits, keep the direction asked for and are unchanged under the limits; without limits they are those asked for. The accelerations read after it are the differences of the velocities over the step. Defect: setting one limit also activates the other at its default (10 m/s, pi rad/s).", "quantifier": "all velocities, limits, orientations and steps", "why_tests_cant": "real quantities", "anchors": ["src/frydom/core/body/FrBody.cpp: SetMaxSpeed, SetMaxRotationSpeed, ActivateSpeedLimits, FrBodyBase::VariablesQbSetSpeed"]}
{"id": "C163", "title": "Position step of a body", "statement": "One step of the position of an active body is the exact motion at constant linear and angular velocity: the rate of change with the step is the velocity, the rate of turn is the angular velocity, the orientation remains a unit quaternion. With constant velocities the final place depends only on the total time, not on how it is cut into steps. A fixed or sleeping body does not move.", "quantifier": "all velocities, orientations, steps and lists of steps", "why_tests_cant": "unbounded lists of real steps", "anchors": ["src/frydom/core/body/FrBody.cpp: FrBodyBase::VariablesQbIncrementPosition"]}
{"id": "C164", "title": "Equations of motion of a body", "statement": "When the accelerations balance the right-hand side the body loads for the solver (external force; external torque minus gyroscopic torque), the momentum of the body changes at the rate of the total external force and its angular momentum about the COG, in world axes, at the rate of the total external torque.", "quantifier": "all motions, inertia matrices and loads", "why_tests_cant": "ranges over functions of real time", "anchors": ["src/frydom/core/body/FrBody.cpp: FrBodyBase::VariablesFbLoadForces"]}
{"id": "C165", "title": "Setting up an irregular sea", "statement": "Whatever setters are called before Initialize and in whatever order (band, spectrum, height, peak, mean direction, directional model, stretching), in whatever sea, once Initialize has succeeded: no query reads a table beyond its end; the frequencies are evenly spaced over the band asked last (over the significant band of the spectrum when none was asked), the directions over the directional band around the mean direction asked last, and the amplitudes are those of the spectrum asked last; the wave numbers satisfy the dispersion relation of the sea at Initialize; the waves are a linear free-surface flow in deep water; each component has its own random phase. Initialize does succeed in the stated conditions. The spectrum used is the one asked last: its shape, its significant height, its peak at the period given. When no frequency band is asked and the sea state is of the usual kind (JONSWAP with peakedness 1 to 10 or Pierson-Moskowitz, height up to 50 m, peak frequency 0.05 to 3.7 rad/s), initialisation succeeds with forty frequencies around the peak; in particular a new field initialises without any call.", "quantifier": "all histories of setters, all seas, all random draws", "why_tests_cant": "unbounded histories of calls", "anchors": ["src/frydom/environment/ocean/freeSurface/waves/airy/FrAiryIrregularWaveField.cpp: SetWaveFrequencies, SetMeanWaveDirectionAngle, SetDirectionalParameters, SetJonswapWaveSpectrum, Initialize, GenerateRandomWavePhases", "src/frydom/environment/ocean/freeSurface/waves/FrWaveSpectrum.cpp: GetWaveAmplitudes"]}
{"id": "C166", "title": "Changing an irregular sea", "statement": "Setters can be called in any order and take effect. This is false: SetDirectionalParameters with no spreading dereferences a null pointer; a spectrum set after the directional parameters makes Initialize fail; after Initialize a change of mean direction, spectrum, height or peak frequency is read back but has no effect on the waves (and a second Initialize keeps the first band); after Initialize more frequencies or directions make every query read beyond a table. A JONSWAP sea state of peak frequency from 4.5 to 10 rad/s for which no band was asked makes initialisation throw.", "quantifier": "all histories of setters, all parameters", "why_tests_cant": "unbounded histories of calls", "anchors": ["src/frydom/environment/ocean/freeSurface/waves/airy/FrAiryIrregularWaveField.cpp: SetDirectionalParameters, ComputeWaveDirections, SetJonswapWaveSpectrum, SetWaveFrequencies"]}
{"id": "C167", "title": "Reproducible random waves", "statement": "Phases generated from a seed after Initialize make the waves depend on the calls and on the seed only, everywhere and at all times. Defects: a seed given before Initialize has no effect at all; on an optimised field, phases generated from a seed after Initialize change the pressure but not the elevation.", "quantifier": "all histories of setters, seeds, draws, points and times", "why_tests_cant": "unbounded histories", "anchors": ["src/frydom/environment/ocean/freeSurface/waves/airy/FrAiryIrregularWaveField.cpp: GenerateRandomWavePhases, Initialize", "src/frydom/environment/ocean/freeSurface/waves/airy/FrAiryIrregularOptimWaveField.cpp: Initialize, GetElevation, GetPressure"]}
{"id": "C168", "title": "Saved sea states", "statement": "An initialised irregular field written to JSON and loaded in a new field with the same stretching gives, once initialised in the same sea, the same elevation, velocity, acceleration and pressure everywhere at all times. Defects: with an optimised field a file with two directions or more makes Initialize read beyond a table, and the amplitudes of the file are ignored by the elevation (a calm sea becomes rough).", "quantifier": "all histories of setters, seas, points and times", "why_tests_cant": "unbounded histories", "anchors": ["src/frydom/environment/ocean/freeSurface/waves/airy/FrAiryIrregularWaveField.cpp: WriteToJSON, LoadJSON, Initialize", "src/frydom/environment/ocean/freeSurface/waves/airy/FrAiryIrregularOptimWaveField.cpp: Initialize"]}
{"id": "C169", "title": "Waves asked of the free surface", "statement": "SetAiryRegularWaveField(A, T, direction), whatever happened before on a shown free surface, gives after any history of initialisations, updates and ends of step the elevation A sin(k (x,y).d - 2 pi t/T) with d the direction asked for in its conventions, t the last time and k the dispersion relation of the sea; an irregular field set up through the free surface behaves as the field alone (C165). Defect: the height asked for is used as an amplitude, so that the waves are twice as high.", "quantifier": "all histories, parameters, conventions, points and times", "why_tests_cant": "unbounded histories", "anchors": ["src/frydom/environment/ocean/freeSurface/FrFreeSurface.cpp: SetAiryRegularWaveField, SetAiryIrregularWaveField, Initialize, Update", "src/frydom/environment/ocean/freeSurface/waves/airy/FrAiryRegularWaveField.cpp: SetWaveHeight, SetWavePeriod, SetDirection"]}
{"id": "C170", "title": "Still water, hidden free surface, grids", "statement": "After NoWaves or ShowFreeSurface(false), and on a new free surface, the water is still (elevation, velocity, acceleration, pressure) in every later history in which no wave field is made. The elevations and velocities asked on a grid are those asked at each of its points. Defect: a wave field made on a hidden free surface answers queries but is never initialised nor updated: regular waves stay frozen, irregular ones read beyond their tables.", "quantifier": "all histories of calls, all grids", "why_tests_cant": "unbounded histories and lists", "anchors": ["src/frydom/environment/ocean/freeSurface/FrFreeSurface.cpp: NoWaves, ShowFreeSurface, Initialize, Update", "src/frydom/environment/ocean/freeSurface/waves/FrWaveField.cpp: FrNullWaveField, GetElevation(vectors), GetVelocity(vectors)"]}
{"id": "C171", "title": "Comparing rotations and frames", "statement": "Rotations found equal turn every vector alike; found approximately equal, they turn every vector to points within four precisions times its length, and frames found approximately equal send every point to points as close (plus the relative precision on the positions); the comparisons are symmetric. Defects: the same rotation built with a full turn more is never equal nor approximately equal; IsZero ignores its precision; a frame at the origin is approximately equal only to frames exactly there, while frames any distance apart are if they are far enough.", "quantifier": "all rotations, frames, precisions, vectors, conventions", "why_tests_cant": "real-valued quantification; the unit tests compare a few frames", "anchors": ["src/frydom/core/common/FrRotation.cpp: operator==, IsApprox, IsZero", "src/frydom/core/common/FrFrame.cpp: operator==, IsApprox, IsZero"]}
{"id": "C172", "title": "Axis, angle and in-place operations of a rotation", "statement": "GetAxisAngle returns a unit axis and an angle in ]0,2pi[ from which the same rotation is rebuilt, except within 3e-4 rad of no rotation where it answers no rotation, about x; a unit axis and an angle in ]0,2pi[ are read back; matrices multiplied on the left or right by a rotation are what linear algebra says; whatever the sequence of in-place operations (SetNullRotation, Set, SetAxisAngle, SetCardanAngles, *=, RotAxisAngle, RotX/Y/Z, Inverse) the object stays a rotation and turns vectors as the composition of the elementary turns in program order, in both conventions.", "quantifier": "all rotations, axes, angles, conventions and sequences of operations", "why_tests_cant": "unbounded sequences, real-valued inputs", "anchors": ["src/frydom/core/common/FrRotation.cpp: Get, GetAxisAngle, GetRotationVector, GetAxis, GetAngle, LeftMultiply, RightMultiply, LeftMultiplyInverse, RightMultiplyInverse, operator*=, RotAxisAngle_RADIANS, RotX_DEGREES, Inverse"]}
{"id": "C173", "title": "Files of polar coefficients", "statement": "The loader of polar coefficients returns a content exactly for the files that have the three names, three numbers and four lists of numbers it documents, each field with its own value; the table has one row per angle, in the order of the file, with the three coefficients of that rank, appended to the one given, and the rows of the lookup table of the flow force say what the rows of the file say. Defects: a file with a missing, mistyped or unknown field never ends by the error message and exit written for it but by an exception that leaves the loader; columns of other lengths stop a debug build, are read out of bounds in a release build when shorter and silently cut when longer.", "quantifier": "all files (any JSON value or no JSON), all lengths of the columns", "why_tests_cant": "unbounded nested data; the unit tests load two valid files", "anchors": ["src/frydom/IO/FrLoader.cpp: LoadFlowPolarCoeffFromJson", "src/frydom/core/common/FrConvention.h: STRING2FRAME, STRING2DIRECTION", "src/frydom/environment/flow/FrFlowForce.cpp: ReadTable"]}
{"id": "C174", "title": "Relaxation of the static analysis", "statement": "Relaxing the system moves nothing; VELOCITY brings every point of every body to rest and keeps the accelerations, ACCELERATION the converse at the centre of gravity, both kinds together leave no point with a velocity or an acceleration, NORELAX leaves the bodies as they are. The residual of an iteration is not negative, bounds the speed and spin of every body and the speed of every node of the dynamic cables, and is null exactly at rest. Defects: the dynamic cables are stopped whatever the kind, NORELAX included; the time ramp the analysis sets \"to 1\" is null at all times, so a ramped current or wind is null during the whole analysis.", "quantifier": "all systems (any bodies, any dynamic cables), all kinds, all fields and all histories of the ramp", "why_tests_cant": "unbounded lists of bodies and nodes, real-valued states, all times; the unit tests run one scene", "anchors": ["src/frydom/core/FrOffshoreSystem.cpp: Relax", "src/frydom/cable/FrDynamicCable.cpp: Relax, GetStaticResidual", "src/frydom/core/statics/FrStaticAnalysis.cpp: Initialize, SolveStatic"]}
{"id": "C175", "title": "Loading a hydrodynamic database", "statement": "When a hydrodynamic database has been built from a file, its general data, its three discretisations and, for every body, name, position, modes, masks, diffraction and Froude-Krylov coefficients (and their sum), added mass, impulse responses, forward speed responses, wave drift series and hydrostatic stiffness are the numbers of the file at the paths of the format: rows spread by the force mask of the body, columns by the motion mask of the body in motion, wherever that body is in the file; what the file leaves out (masks, drift, hydrostatics, forward speed) takes the documented default. A file that follows the format is always loaded; a file whose bodies are not numbered in their order is refused. Defects: the number of motion modes of the file is not used (as many as force modes are read); the k-th column given by the STD reader is the columns 0 to k one after the other.", "quantifier": "all files (any partial function from paths to data), any number of bodies, frequencies, directions and times, any masks", "why_tests_cant": "all files of any size; the unit tests read one file", "anchors": ["src/frydom/hydrodynamics/seakeeping/linear/hdb/FrHydroDB.cpp: FrHydroDB, ModeReader, ExcitationReader, RadiationReader, WaveDriftReader, HydrostaticReader", "src/frydom/IO/FrHDF5.cpp: ReadDoubleArray, ReadIntArray, ReadDoubleArraySTD", "src/frydom/hydrodynamics/seakeeping/linear/hdb/FrBEMBody.cpp: setters"]}
{"id": "C176", "title": "What the columns of the logs hold", "statement": "In the log files every column holds the quantity its name, unit and description announce, in the frame convention written in its description. For a body: positions of origin and COG, Cardan angles of the orientation (rad), velocities that are the time derivatives of the logged positions, accelerations that are those of the logged velocities, angular velocity of the orientation. For a node: position, velocity, acceleration, constant position in the body. For a force: force and torque about the COG in body and world axes, equivalent to the load. For a link: relative position, velocity, acceleration, angles and angular velocity; reactions on the two bodies that balance; power in kW. For an equilibrium frame: its position and angles, and the perturbation. False (proved): angular acceleration of a link in \"m/s^2\"; link velocities in NED; motor power labelled kW and logged in watts; perturbation position said to be in the world frame; descriptions that keep the convention of the start when the convention is changed later.", "quantifier": "all motions of bodies, nodes, links and equilibrium frames, all times, both conventions, all histories of settings of the convention", "why_tests_cant": "all motions and histories; unit tests do not read the log files back", "anchors": ["src/frydom/core/body/FrBody.cpp: DefineLogMessages", "src/frydom/core/common/FrNode.cpp: DefineLogMessages", "src/frydom/core/force/FrForce.cpp: DefineLogMessages", "src/frydom/core/link/links_lib/FrLink.cpp: DefineLogMessages", "src/frydom/hydrodynamics/FrEquilibriumFrame.cpp: DefineLogMessages", "src/frydom/logging/FrLoggable.cpp: SetLogFrameConvention, GetLogFC"]}
{"id": "C177", "title": "A node: its axes, turning about an axis, moving along a direction, its angular velocity", "statement": "Giving a node by a position and a right-handed orthonormal triple of axes in either convention puts it there in the body with exactly those axes, and it stays attached to the body. Turning a node about an axis by an angle leaves its place and turns everything carried by it by that angle about that axis of the node, positively in the convention, whichever of the \"in body\" and \"in world\" calls is used. Moving it along a direction by a distance moves it exactly that far along the direction. Its angular velocity in the axes of the body, or of the node, is the angular velocity of the body projected on these axes. The last is false: both read zero whatever the motion, proved together with the exact condition (a body that does not rotate).", "quantifier": "all bodies, all nodes attached to them, all right-handed triples, axes, angles, directions, distances, both conventions", "why_tests_cant": "all poses, angles and motions; a test checks a few and the angular velocity getters in body axes are never compared with the world one", "anchors": ["src/frydom/core/common/FrNode.cpp: Set", "src/frydom/core/common/FrNode.cpp: RotateAroundXInBody, RotateAroundXInWorld", "src/frydom/core/common/FrNode.cpp: TranslateInBody, TranslateInWorld", "src/frydom/core/common/FrNode.cpp: GetAngularVelocityInBody, GetAngularVelocityInNode"]}
{"id": "C178", "title": "Wave amplitudes over a range of frequencies and directions", "statement": "Asking a spectrum for the amplitudes over a range given by a number of frequencies and two bounds gives one amplitude per frequency of the even cut, each carrying the energy of its cell, and the same amplitudes as giving the list of these frequencies; with directions, the energy is shared by the spreading function centred on the mean direction given. Proved for two frequencies or more: the energies, the total energy (trapezoidal rule plus half a cell at both ends), the agreement with the list. False (proved): one frequency reads beyond the end of the vector; the mean direction is not used, the spreading is centred on the middle of the range.", "quantifier": "all densities, spreading functions, bounds, numbers of frequencies and directions, mean directions", "why_tests_cant": "all spectra and ranges; the failing read is undefined behaviour that a test may not notice", "anchors": ["src/frydom/environment/ocean/freeSurface/waves/FrWaveSpectrum.cpp: GetWaveAmplitudes"]}
{"id": "C179", "title": "Functions written to a table, estimated derivatives, texts, functions given to a motor", "statement": "Writing a function to a file over a range with a positive step ends; its rows are exactly the abscissae xmin + k dx not above xmax, in order, each with the value and the two derivatives of the function there, in whatever order the compiler evaluates them, and the function then answers as before. The estimated derivatives differ from the exact ones by at most the step (1e-7) times the next derivative. The text of a function tells which function it is. A function given to a motor is followed as it was when given. False (proved): a zero or negative step never ends; texts have no parentheses and elementary functions no text, so different functions read the same; a motor drops the offset of the function.", "quantifier": "all functions a user can build, all queries made before, all ranges and steps, all evaluation orders", "why_tests_cant": "unbounded expressions, ranges and histories; the evaluation order is the choice of the compiler", "anchors": ["src/frydom/core/math/functions/FrFunctionBase.cpp: WriteToGnuPlotFile, Estimate_y_dx, Estimate_y_dxdx", "src/frydom/core/math/functions/FrFunctionBase.cpp: GetRepr", "src/frydom/core/math/functions/FrFunctionBase.cpp: FrFunctionChronoInterface, FrChronoFunctionWrapper"]}
{"id": "C180", "title": "Columns of the logs of constraints and cables", "statement": "In the log of a constraint, position, angles in degrees, force and torque are those of its reference frame in the world, and the columns of body 1 are the same reaction taken at its centre of gravity in its axes. In the log of a catenary line the tensions are the pulls on its two bodies, whose sum is the weight of the line, and the length is between the distance of the ends and the stretched length. In the log of a dynamic cable the tensions are along the first and last elements with the axial force there, pulling each end towards the cable, and the length is at least the distance of the ends. The sizes set for drawing are those read. False (proved): the columns of body 1 of the two distance constraints are in the axes of body 2; the size of the nodes drawn is the radius of the elements.", "quantifier": "all constraints, lines and cables, all positions and reactions, both conventions", "why_tests_cant": "ranges over all mechanical states, frames and interpolation laws", "anchors": ["src/frydom/core/link/constraint/FrConstraint.cpp: DefineLogMessages", "src/frydom/cable/FrCatenaryLine.cpp: DefineLogMessages", "src/frydom/cable/FrDynamicCable.cpp: DefineLogMessages, GetDrawNodeSize"]}
{"id": "C181", "title": "Boundary of a mesh", "statement": "The search for the boundary polygons of a mesh ends, leaves no tag on the half-edges, and its polygons are closed rounds that contain each half-edge without a face exactly once; a mesh is watertight exactly when there is no such polygon, and then the volume computed is the enclosed one and a uniform pressure on it has no resultant. After any sequence of moves, changes of mesh and earlier searches, the polygons returned are those of the mesh as it is, where it is. The mesh converted for drawing has the same vertices and faces, turned the same way.", "quantifier": "all half-edge meshes with the guarantees of OpenMesh, all sequences of operations", "why_tests_cant": "quantifies over all meshes and all histories of a cached result; the search is a loop in a loop over shared tags", "anchors": ["src/frydom/mesh/FrMesh.cpp: HasBoundaries, IsWatertight, FindFirstUntaggedBoundaryHalfedge, GetBoundaryPolygonSet, CalcBoundaryPolygonSet, ConvertToTriangleMeshConnected, UpdateAllProperties", "src/frydom/mesh/FrCache.h"]}
{"id": "C182", "title": "What the constraints between points, axes and planes impose", "statement": "Initialised with the two bodies anywhere, a parallel or perpendicular constraint imposes, wherever the bodies then go, that the two axes carried by their own bodies are parallel or perpendicular; a point-on-plane (plane-on-plane) constraint that the point (the origin of the second plane) is, counted along the normal of the first plane, at the last distance set, before or after the initialisation, and for planes that the normals are along the same line; a distance constraint that the distance between the two points, or of the point to the axis, is the distance returned by the constraint, the point being free to slide along the axis.", "quantifier": "all bodies, nodes, labels, positions and attitudes at the initialisation and later, distances and sequences of settings", "why_tests_cant": "quantifies over all places of the bodies and all settings before or after the initialisation", "anchors": ["src/frydom/core/link/constraint/FrConstraint.cpp: Initialize, SetDistance, GetDistance, SetFlipped (all constraint classes)", "src/frydom/core/link/constraint/FrConstraint.h", "src/frydom/core/link/constraint/FrCGeometrical.cpp"]}
{"id": "C183", "title": "The hydrostatic stiffness matrix is minus the derivative of the hydrostatic load", "statement": "For a hull whose submerged part is the mesh given to the hydrostatic computation (clipped by the plane of the sea, outer waterlines) and the rest is above the sea, of the mass it displaces, with its centre of gravity and the reduction point anywhere: the stiffness matrix returned is minus the derivative, at the position studied, of the vertical force and of the roll and pitch moments about the reduction point that the pressure of the sea at rest on the whole hull and the weight exert when the body heaves, rolls and pitches.", "quantifier": "all hulls (any shape and number of waterlines, no face in the plane of the sea), centres of gravity, reduction points, densities, and all heave, roll and pitch motions through the position studied", "why_tests_cant": "a derivative along all motions, of an integral of the pressure over a surface of any shape, cannot be settled by a finite set of runs", "anchors": ["src/frydom/hydrodynamics/hydrostatic/FrHydrostaticsProperties.cpp: CalcHydrostaticProperties", "src/frydom/hydrodynamics/hydrostatic/FrLinearHydrostaticStiffnessMatrix.h: FrLinearHydrostaticStiffnessMatrix", "src/frydom/hydrodynamics/hydrostatic/FrLinearHydrostaticForce.cpp: Compute"]}
{"id": "C184", "title": "Metacentric heights of a floating body", "statement": "GetMetacentricHeight of a nonlinear hydrostatic force returns the transverse and longitudinal metacentric heights of the floating body: heeled (trimmed) by a small angle about the longitudinal (transverse) axis through the centroid of its water plane, the body is righted by the weight of the displaced water times the height, per radian. [False in general: without a reduction point the second moments are taken about the origin of the body, so that the heights are too high by A y²/V and A x²/V for a water plane of area A centred at (x, y) in the axes of the body; and the axes are those of the world, so that the heights depend on the heading of the body.]", "quantifier": "all hulls with outer waterlines, all bodies, positions, headings, centres of gravity, densities", "why_tests_cant": "the righting moment is a derivative of an integral over hulls of any shape", "anchors": ["src/frydom/hydrodynamics/hydrostatic/FrNonlinearHydrostaticForce.cpp: GetMetacentricHeight", "src/frydom/hydrodynamics/hydrostatic/FrHydrostaticsProperties.cpp: CalcHydrostaticProperties", "src/frydom/mesh/FrHydroMesh.cpp: Compute"]}
{"id": "C185", "title": "The linear hydrostatic load is tangent to the load of the sea", "statement": "For a floating body of the mass it displaces and centre of buoyancy on the vertical of its centre of gravity, the load of the linear hydrostatic force, with the stiffness of the hydrostatics of its hull, is to first order the load of the sea at rest on the whole hull: force and moment about the centre of gravity, in the world, all components, for every heave, roll and pitch from the equilibrium, any surge, sway and yaw and any course of the equilibrium frame, when the point followed by the equilibrium frame, the reduction point of the stiffness and the centre of gravity are on a same vertical. The maker with a mesh file gives such a stiffness. [False for the maker with a mesh when the centre of gravity is not on the vertical of the origin of the body: the moment due to heave is wrong at first order.] [Also false when the body has a heading when the force is made with a mesh: the stiffness is taken in the axes of the world and used in those of the equilibrium frame; the roll moment is then wrong at first order.]", "quantifier": "all hulls with outer waterlines, bodies, points followed, motions starting from the equilibrium, headings, horizontal positions", "why_tests_cant": "a limit over all motions, of an integral over hulls of any shape", "anchors": ["src/frydom/hydrodynamics/hydrostatic/FrLinearHydrostaticForce.cpp: Compute, make_linear_hydrostatic_force", "src/frydom/hydrodynamics/hydrostatic/FrHydrostaticsProperties.cpp: CalcHydrostaticProperties", "src/frydom/hydrodynamics/FrEquilibriumFrame.cpp: GetPerturbationFrame"]}
{"id": "C186", "title": "Spring-damper loads of a link: action and reaction, and power", "statement": "The spring-damper force and torque at the centre of gravity that a prismatic or revolute link returns for its two bodies, in either frame convention, are, with the joint satisfied, the loads applied to the bodies, and they are opposite: forces and moments about every point of the world add to zero, wherever the bodies and nodes are. For an arbitrary load or an open joint the load returned for body 1 is right if and only if the force is along the line of the nodes, the one for body 2 if and only if the relative rotation of the nodes leaves force and torque unchanged. The power returned by a link is the power of its load on body 1 plus its power on body 2, for every load and motion; those of a prismatic link (joint satisfied) and of a revolute link are that power.", "quantifier": "all loads, positions and orientations of bodies and nodes, motions of the two nodes, stiffnesses, dampings, frame conventions", "why_tests_cant": "equalities of loads and powers over all configurations and motions of two bodies", "anchors": ["src/frydom/core/link/links_lib/FrLink.cpp: GetSpringDamperForceOnBody1, GetSpringDamperForceOnBody2, GetSpringDamperTorqueOnBody1AtCOG, GetSpringDamperTorqueOnBody2AtCOG, GetLinkPower", "src/frydom/core/link/links_lib/FrPrismaticLink.cpp: UpdateForces, GetLinkPower", "src/frydom/core/link/links_lib/FrRevoluteLink.cpp: UpdateForces, GetLinkPower"]}
{"id": "C187", "title": "Mean level and mean square of the elevation of an irregular sea", "statement": "In an irregular sea, once its time ramp is over (or with none), the mean over a long time of the elevation returned at any point is zero. With one direction of propagation the mean over a long time of its square is, at every point and in both frame conventions, half the sum of the squares of the amplitudes; for a field initialised by any sequence of calls this is the sum of the densities at the frequencies times their spacing, and the integral of the spectral density over the band up to the error of the midpoint rule. With several directions it is, frequency by frequency, half the square of the modulus of the sum of the complex amplitudes of the directions at that point, so it is not the same at all points. When the phases are drawn independently and uniformly, the expected elevation is zero and the expected square is half the sum of the squares of the amplitudes of all the components (times the square of the ramp), at every point and instant, for any number of directions.", "quantifier": "all sequences of set-up calls, spectra, numbers of directions and frequencies, points, instants, time ramps that end at one, frame conventions; all independent uniform draws", "why_tests_cant": "limits of means over an unbounded time, and expectations over all draws", "anchors": ["src/frydom/environment/ocean/freeSurface/waves/airy/FrAiryIrregularWaveField.cpp: GetElevation, GetComplexElevation, GenerateRandomWavePhases, Initialize", "src/frydom/environment/ocean/freeSurface/waves/FrWaveField.cpp: Update", "src/frydom/environment/ocean/freeSurface/waves/FrWaveSpectrum.cpp: GetWaveAmplitudes"]}
{"id": "C188", "title": "Long-run means of the velocity, pressure and excitation load under an irregular sea", "statement": "Under an irregular sea of one direction, its ramp over, the velocity and the dynamic pressure returned at a fixed point (no stretching) have a null mean over a long time: the waves carry no mean flow at a fixed point. The means of the squares of the horizontal velocity, of the vertical velocity and of the pressure are the sums over the waves of half the squares of the amplitudes given by linear theory at that depth. Each of the six components of the linear excitation load in the axes of an equilibrium frame that stays where it is has a null mean, and a mean square that is the sum over the frequencies of the density of the sea times the square of the modulus of the coefficient of the database times the spacing of the frequencies, wherever the frame is.", "quantifier": "all irregular fields with one direction and distinct frequencies (from any sequence of set-up calls for the load), depths, points, places and headings of the frame, coefficients, time ramps that end at one", "why_tests_cant": "limits of means over an unbounded time for every sea and database", "anchors": ["src/frydom/environment/ocean/freeSurface/waves/airy/FrAiryIrregularWaveField.cpp: GetVelocity, GetPressure", "src/frydom/hydrodynamics/seakeeping/linear/excitation/FrLinearHDBForce.cpp: Initialize, Compute_F_HDB", "src/frydom/environment/ocean/freeSurface/waves/FrKinematicStretching.cpp: Eval, EvalDZ"]}
{"id": "C189", "title": "Linear hydrostatic load with the stiffness of a database", "statement": "The linear hydrostatic force made with a database whose 6 x 6 stiffness matrix K is symmetric without surge, sway and yaw terms applies at the centre of gravity, besides the force opposite to the weight, the load -K x, where x are the six displacements of the body from its equilibrium frame: force along the axes of the world, moments about the axes of the body, all six components. [Defect: only the upper triangle is used; with a matrix that is not symmetric the load is not -K x.]", "quantifier": "all stiffness matrices, displacements within the range of the Cardan angles, bodies, equilibrium frames, earlier settings", "why_tests_cant": "continuum of matrices and displacements", "anchors": ["src/frydom/hydrodynamics/hydrostatic/FrLinearHydrostaticForce.cpp: Compute, SetStiffnessMatrix, make_linear_hydrostatic_force", "src/frydom/hydrodynamics/seakeeping/linear/hdb/FrBEMBody.cpp: SetStiffnessMatrix", "src/frydom/hydrodynamics/seakeeping/linear/hdb/FrHydroDB.cpp: HydrostaticReader"]}
{"id": "C190", "title": "Radiation loads never give energy to bodies that start from rest", "statement": "The radiation loads by convolution take energy out of the motion. For impulse responses obtained, at the delays of the memory, as cosine sums of damping coefficients that dissipate energy at every frequency (symmetric, non negative for every motion of all the bodies together), recorded at each step, without mean speed: after any number of steps, for any motion of the bodies, the total work of the radiation loads on all the bodies is not positive if the bodies are at rest at the first two steps, and otherwise at most h²/8 times the quadratic form of the responses at zero delay on the velocities of the second step. It holds as long as the simulation is not longer than the memory, or for responses that are null from the end of the memory on; it is false of a memory that cuts the responses before they have died out: a single heaving body then receives energy without limit.", "quantifier": "all numbers of bodies, masks, motions of the bodies and of their equilibrium frames, responses that are cosine sums of dissipative damping coefficients, steps, memory sizes, numbers of steps", "why_tests_cant": "an inequality on a sum over an unbounded history of an arbitrary motion", "anchors": ["src/frydom/hydrodynamics/seakeeping/linear/radiation/FrRadiationModel.cpp: FrRadiationConvolutionModel::Compute, TrapzLoc", "src/frydom/utils/FrRecorder.h: Record, GetTime, GetData", "src/frydom/hydrodynamics/FrEquilibriumFrame.cpp: GetPerturbationVelocityInFrame"]}
{"id": "C191", "title": "The nonlinear hydrostatic load in still water is conservative", "statement": "For any closed hull attached to a body that moves in any way, at every time when it displaces some water: the power of the nonlinear hydrostatic force in still water (force times the velocity of any point of the body plus torque about that point times angular velocity) is exactly minus the rate of change of the potential energy of the displaced water, rho g times the integral of the depth over the immersed volume. Hence a body of constant mass and inertia with no other loads than its weight and this force, that obeys the equations given to the solver, keeps the sum of its kinetic energy, the energy of its weight and the energy of the displaced water constant for ever. The mesh used at each time must be the part of the hull under the sea (equal surface integrals for what vanishes above the sea), closed up to its rings at the surface.", "quantifier": "all hulls, motions, times, points of the body, fluid densities, gravities, masses and inertias", "why_tests_cant": "a relation between a load and the time derivative of an integral over a moving clipped mesh, and its integral over an unbounded time", "anchors": ["src/frydom/hydrodynamics/hydrostatic/FrNonlinearHydrostaticForce.cpp: Compute, GetHydrostaticForceInWorld, GetCenterOfBuoyancyInWorld", "src/frydom/mesh/FrHydroMesh.cpp: Compute", "src/frydom/core/body/FrBody.cpp: GetPointPositionInWorld, GetVelocityInWorldAtPointInBody"]}
{"id": "C192", "title": "Clipping error of the hydrostatic load is bounded by the threshold", "statement": "When no vertex is projected, clipping a hull by a surface shares every surface integral exactly between the mesh that remains and the triangles that are dropped: for every continuous function, both the integral over the surface and the integral with the normal add up to those of the original hull. So, for the sea at rest, the nonlinear hydrostatic force on the clipped mesh differs from the force of the sea on the whole original hull by at most rho g times the clipping threshold times the area of the hull on each axis, and (clipped mesh closed by flat loops at the surface) the torque about any point by twice that times the size of the hull about the point; and for a body that moves in any way the power of the load is minus the rate of change of the potential energy of the water displaced by the whole hull, within rho g times threshold times area times the velocities.", "quantifier": "all manifold triangle meshes, clipping planes (the sea at rest for the loads), thresholds above 1e-16, orders in which the mesh library lists elements, continuous functions, bodies, motions, times and points of the body", "why_tests_cant": "integrals over unbounded meshes that the clipper cuts in an unspecified order; derivative of an integral along every motion", "anchors": ["src/frydom/mesh/FrMeshClipper.cpp: ProcessFace, ProcessHalfEdge, InsertIntersectionVertex, FlagVertexAdjacentFacesToBeDeleted, ApplyFaceDeletion", "src/frydom/hydrodynamics/hydrostatic/FrNonlinearHydrostaticForce.cpp: Compute, GetHydrostaticForceInWorld", "src/frydom/mesh/FrMesh.cpp: GetMeshedSurfaceIntegral"]}
{"id": "C193", "title": "The energy of the discretised sea converges to that of the spectrum", "statement": "For any spectral density continuous and nonnegative on a band, the energy of the wave amplitudes computed for frequencies going from one end of the band to the other tends to the integral of the density over the band as the largest step goes to zero, however unequal the steps; the same holds for a number of frequencies over a range. With a directional model it tends to the product of the integral of the density and that of the spreading over the range of directions; with the cos2s spreading over a full circle, to the integral of the density. For the Pierson-Moskowitz and JONSWAP (peakedness one) spectra four times the square root of the energy tends to Hs sqrt(exp(-B/b^4) - exp(-B/a^4)), B being the scale of the tail of the spectrum: always less than the significant height asked for, by at most Hs (B/b^4 + a^4/B). And for an irregular sea without directional spreading, whatever calls configured it, the mean over a long time of the square of the elevation returned at any point is as close as wished to the integral of the density over its band once there are enough frequencies.", "quantifier": "all continuous nonnegative densities, bands, lists of frequencies and directions, spreading factors, numbers of components, sequences of calls configuring a sea, points and conventions", "why_tests_cant": "a limit over all finer and finer discretisations of every density", "anchors": ["src/frydom/environment/ocean/freeSurface/waves/FrWaveSpectrum.cpp: GetWaveAmplitudes, vectorDiscretization, FrJonswapWaveSpectrum::Eval, FrPiersonMoskowitzWaveSpectrum::Eval, FrCos2sDirectionalModel::Eval", "src/frydom/environment/ocean/freeSurface/waves/airy/FrAiryIrregularWaveField.cpp: Initialize, GetElevation"]}
{"id": "C194", "title": "A catenary line is conservative", "statement": "Call energy stored in a line the integral along it of its strain energy (tension squared over twice EA, none if not elastic) and of its weight in the fluid times its height. When the ends of a line in equilibrium are moved to other places and the line is again in equilibrium, however large the motion, the stored energy increases by at least the opposite of the work of the two end forces held at their first values and by at most the opposite of their work at their last values. Along any motion of the ends with a continuous tension (always the case if the line is elastic: the tension moves by at most EA/L times the change of the vector between the ends) the stored energy changes at the opposite of the power of the two end forces, and over a motion the end forces do exactly the work the line loses: none over a closed path. The power of the loads read on the two bodies (force with the velocity of the COG and torque at the COG with the angular velocity) is the rate at which the stored energy decreases; two bodies joined by an elastic line, or one body moored by it to a fixed node at either end, under their weight and the equations of the solver, keep the sum of their energies and of that of the line for ever.", "quantifier": "all cables with a load per metre that is not zero, lengths, ends, motions of the ends, histories of bodies and node positions", "why_tests_cant": "an integral along every line and every history of motion; an energy conserved for all times", "anchors": ["src/frydom/cable/FrCatenaryLine.cpp: GetTension, GetStartingNodeTension, GetEndingNodeTension, GetNodePositionInWorld, solve", "src/frydom/cable/FrCatenaryForce.cpp: Compute", "src/frydom/core/body/FrBody.cpp: VariablesFbLoadForces"]}
{"id": "C195", "title": "Work and energy of a body under any loads; a moored, floating, damped body is passive", "statement": "Under the equations the solver puts together for a body with any list of loads, its energy (kinetic energy of translation and of rotation, and weight times the height of the centre of gravity) changes at the sum of the powers of the loads, each computed from the force, the torque at the centre of gravity and the velocities that the API returns. So for a body with any number of elastic mooring lines in equilibrium, fastened by either end, and any loads that never give it power, the sum of its energy and of the energies stored in its lines never increases, and is constant when there are only the lines. The same holds for a body that floats in still water under the nonlinear hydrostatic load, any number of mooring lines, a linear damping whose quadratic form is not negative and a quadratic damping with coefficients that are not negative: the sum of its energy, of that of the displaced water and of those of its lines never increases.", "quantifier": "all bodies, histories that satisfy the equations, lists of loads, numbers and layouts of mooring lines, hulls, damping matrices and coefficients", "why_tests_cant": "a quantity monotone along every motion for all times", "anchors": ["src/frydom/core/body/FrBody.cpp: VariablesFbLoadForces", "src/frydom/cable/FrCatenaryForce.cpp: Compute", "src/frydom/hydrodynamics/hydrostatic/FrNonlinearHydrostaticForce.cpp: Compute", "src/frydom/hydrodynamics/damping/FrLinearDamping.cpp: Compute", "src/frydom/hydrodynamics/damping/FrQuadraticDamping.cpp: Compute"]}
{"id": "C196", "title": "Energy of the spring of a link; its reactions do no work; two linked bodies are passive", "statement": "While two bodies move in any way that a prismatic link allows, the energy of its spring (stiffness times the square of the link position, over two) changes at the opposite of the power of the spring-damper forces and torques at the centre of gravity that the link returns for the two bodies, less the damping coefficient times the square of the link velocity: between two times the loads do the work the spring loses less what the damper takes, so with coefficients that are not negative never more than the energy stored at the start, and none over a cycle. For a revolute link the same holds with the true angle between the nodes, exactly while the link angle it returns is the true angle from rest and otherwise up to the error of that angle times the stiffness and the angular velocity. The reactions returned for the two bodies, without component along the freedom of the joint, have powers that add to zero. Two bodies joined by such a link, under their weights, its spring-damper loads and reactions and other loads that never give them power, have a total energy (bodies and spring) that never increases, and that is constant without damper and other loads.", "quantifier": "all bodies, nodes, orientations, motions that the joint allows, stiffnesses, damping coefficients, rest positions and pairs of times", "why_tests_cant": "a balance of powers and a monotone quantity along every motion for all times", "anchors": ["src/frydom/core/link/links_lib/FrPrismaticLink.cpp: Update, UpdateForces, GetLinkPosition", "src/frydom/core/link/links_lib/FrRevoluteLink.cpp: Update, UpdateForces, GetLinkAngle", "src/frydom/core/link/links_lib/FrLink.cpp: GenerateCache, GetSpringDamperForceOnBody1, GetSpringDamperTorqueOnBody2AtCOG, GetLinkReactionForceOnBody1, GetLinkReactionTorqueOnBody2AtCOG", "src/frydom/core/body/FrBody.cpp: VariablesFbLoadForces"]}
{"id": "C197", "title": "Momentum and angular momentum of a body under any loads; linked bodies keep theirs", "statement": "Under the equations the solver puts together for a body with any list of loads, in every direction its momentum (mass times the velocity of the centre of gravity) changes at the sum of the forces that the API returns for the loads and of the weight, and its angular momentum about any fixed point of the world changes at the sum of the torques at this point that the API returns for the loads and of the moment of the weight. Two bodies joined by a prismatic or a revolute link, under their weights and the spring-damper loads and reactions that the link returns for them, keep for ever the horizontal components of their total momentum and the vertical component of their total angular momentum about every fixed point; without gravity they keep all components.", "quantifier": "all bodies, inertias, lists of loads, histories that satisfy the equations, directions, points of the world, links with any stiffness, damping and reactions, nodes and times", "why_tests_cant": "a quantity kept along every motion for all times", "anchors": ["src/frydom/core/body/FrBody.cpp: VariablesFbLoadForces", "src/frydom/core/force/FrForce.cpp: GetForceInWorld, GetTorqueInWorldAtPointInWorld", "src/frydom/core/link/links_lib/FrLink.cpp: GenerateCache, GetSpringDamperForceOnBody1, GetSpringDamperTorqueOnBody2AtCOG, GetLinkReactionForceOnBody1, GetLinkReactionTorqueOnBody2AtCOG"]}
{"id": "C198", "title": "Floating bodies joined by a line keep their horizontal momentum and their vertical angular momentum", "statement": "The hydrostatic force that the API computes for a body at the plane surface is a vertical force whose moment about every point of the world is horizontal. Two bodies under their weights, the two forces of a catenary line in equilibrium that joins a node of one to a node of the other, and any such vertical loads keep for ever, under the equations of the solver, the horizontal components of their total momentum and the vertical component of their total angular momentum about every fixed point: a line cannot push or yaw the system it belongs to.", "quantifier": "all bodies, inertias, nodes, elastic or inextensible lines in equilibrium with a non-zero weight in the fluid, wetted meshes whose boundary lies in the plane z = 0, lists of vertical loads, histories that satisfy the equations, points and times", "why_tests_cant": "a quantity kept along every motion for all times", "anchors": ["src/frydom/cable/FrCatenaryForce.cpp: Compute", "src/frydom/cable/FrCatenaryLine.cpp: GetTension, GetNodePositionInWorld", "src/frydom/hydrodynamics/hydrostatic/FrNonlinearHydrostaticForce.cpp: Compute", "src/frydom/core/body/FrBody.cpp: VariablesFbLoadForces"]}
