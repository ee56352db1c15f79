# Formal model of vasole/fisx in Lean 4: design

## 1. What is trusted

* Lean 4.33.0's kernel and the axioms `propext`, `Classical.choice`, `Quot.sound` (nothing else;
  `#print axioms` on every theorem of MANIFEST.json shows a subset of these).
* The reading of the C++ code: the model is hand written from /repo/src and every definition cites
  the file and lines it models. The code is never run.
* Mathlib (as checked by the kernel) for ordered fields, real `exp`, `log`, `sqrt`, `pi`.

### Modelling conventions

* **Numbers.** A C++ `double` is modelled by an element of an arbitrary linearly ordered field `K`
  (so each theorem holds in particular over the rationals, where the examples compute, and over the
  reals), or by a real number where `exp`, `log`, `sqrt` or `pi` is used. Rounding, overflow, NaN and infinities are
  outside the model unless a definition says the contrary. Consequence: equalities such as "sums to one" are about
  exact arithmetic.
* **Outcomes.** Every method that can throw or can step outside the C++ standard returns
  `Outcome α = ok a | throw e | ub u | diverge`. `throw` carries the exception class, `ub` names the undefined behaviour
  (out-of-range index, dereferenced `end()`, null pointer, dangling reference). A method that mutates the object returns
  the pair (outcome, object after the call), so the partial updates made before an exception are visible in the model.
* **std::map** is a list of pairs sorted by strictly increasing key, with the insertion/lookup/iteration functions of
  `Verif/SMap.lean`; iteration is in key order as in C++.
* **Loops** are folds or structural recursions; recursion which the C++ does not guarantee to end takes fuel, and
  running out of fuel for every fuel is what "does not terminate" means.
* **External code** (file system, stream number parsing, the physics data files, libm approximations) is a
  parameter of the model. The theorems quantify over it.

### File layout

`Verif/X.lean` is the model of a C++ unit, `Verif/XProps.lean` contains the property theorems (named as in
MANIFEST.json) with the small independent specification they use and the examples showing that the hypotheses are met.

## 2. Plan per property

| id | what is modelled | how it is proved |
|----|------------------|------------------|
| C01 | Material::setComposition, both overloads (Material.lean) | sum over the sorted map; normalisation equivalent to distinct names |
| C02 | Material as a state machine (Material.lean) | invariant by induction over the call list |
| C03 | TransmissionTable::getTransmission, single and vector (TransmissionTable.lean) | case analysis on the upper-bound split of a sorted table |
| C04 | TransmissionTable state machine | invariant by induction over the calls; exact effect of an accepted call |
| C05 | list overload of setTransmissionTable | counter-example with repeated energies; partial theorem |
| C06 | Beam::setBeam + normalizeBeam (Beam.lean) | permutation and sortedness of insertion sort; read-back of the vectors |
| C07 | vector indexing of setBeam as explicit outcome | exact characterisation of the lengths with UB, hence negation + partial |
| C08 | Layer::getTransmission over the reals (Layer.lean) | monotonicity of exp |
| C09 | Layer state machine | induction over the calls; negation for the material default density |
| C10 | Detector geometry over the reals (Detector.lean) | algebra with sqrt |
| C11 | Detector as a state machine over an abstract escape function | cache invariant; negation for the pre-C++17 evaluation order |
| C12,C13 | Shell ratio computation (Shell.lean) | sums over maps |
| C14 | Shell setters with partial updates | negation with witness; frame for the parts that hold |
| C15 | Shell::getDirectVacancyTransferRatios | bound by sums over the transition maps |
| C16,C17 | Element cascade as a fold over the shell list (Element.lean, ElementCascade.lean) | linearity, causality by induction over shells; cache invariant |
| C18,C19,C20 | Element with both caches as a state machine (ElementCache.lean) | invariants over histories; negations with witness histories |
| C21 | vacancy distribution | sums |
| C22 | Element::getInterpolationIndices, log-log interpolation, extrapolation where a shell has no data, zero values (ElementInterp.lean, ElementExtrapolate.lean) | lower-bound lemma; real log/exp |
| C23 | EPDL97::getInterpolationIndices with its static variable as state (EPDL97.lean, EPDL97Values.lean) | invariant on the remembered index; negations |
| C24,C25,C26 | registries of Elements (Library.lean) | refinement to a finite map; negations for C26 |
| C27 | parseFormula on character lists with fuel (Formula.lean) | induction over a grammar of formulas; negations |
| C28,C29,C30 | composition (Library.lean, LibraryComp.lean) | sums; relational substitution specification, soundness and completeness by induction; divergence for cyclic libraries |
| C31 | mixture rule (LibraryMix.lean) | linearity of sums |
| C32 | peak families (LibraryPeaks.lean) | filter + any correct sort |
| C33,C34 | getEscape and its cache (LibraryEscape.lean) | exact set of peaks; negation for the ignored thresholds; cache invariant |
| C35-C38 | SimpleIni on lists of characters (Ini.lean) | induction on the lines of an abstract document; negations |
| C39,C40,C63 | SimpleSpecfile (Specfile.lean) | induction on lines |
| C41 | geometric efficiency over the reals | sqrt monotonicity |
| C42,C44,C64,C65 | XRFConfig (Config.lean) | state machine; induction over sections; negations |
| C43 | getEnergyThreshold (Xrf.lean) | case analysis |
| C45,C46,C47,C66,C71,C72,C73 | XRF::getMultilayerFluorescence: Multilayer.lean (ray/layer/element/shell/line loops, primary, secondary and tertiary excitation, escape, detection), MultilayerEnv.lean (what the calculation takes from configuration and library) | invariants of each accumulation loop, lifted from the innermost map update to the whole result; the environment is shown regular for every SoundLibrary |
| C48,C49,C60,C61 | Math (MathFn.lean) | case analysis; bounds of the series and of the continued fraction over the reals |
| C50,C51,C62 | EPDL97 | sums, index bounds |
| C52,C53 | Element setters, transition energies | invariants |
| C54 | request parsing (Xrf.lean) | list lemmas |
| C55 | repeated names in Material::setComposition | negation; see C01 |
| C56,C57,C58 | Shell labels and constructors | case analysis on labels |
| C67,C68,C69 | Layer together with the library (LayerLibrary.lean) | state machine, mixture rule, peak families |
| C70 | thresholds of partial coefficients (ElementThreshold.lean) | invariant over histories with caches |
| C74 | sums of coefficients (ElementSums.lean) | invariant on the cache entries |
| C77,C78 | totality: Good.lean, ElementTotal.lean, MultilayerTotal.lean, MultilayerExample.lean | predicate Good (returns, or throws if allowed; never ub or diverge) propagated through every loop |
| C79,C80,C81,C82 | files of shell data: the three loaders on the text of the file, through the Specfile model (Loader.lean) | induction over rows and scans with an invariant on the reused dictionary; counterexample files for the violated parts |
| C83 | shell setters of an element (Element.lean, ElementShells.lean) | case analysis; frame conditions |
| C84 | MultilayerSecondary.lean, MultilayerThick.lean (example): specification of the sources, the geometry and the contribution of a source | each loop of the secondary excitation is a sum over a list; caches give the same coefficients (CacheOk) |
| C85 | MultilayerTertiary.lean: specification `gain`, `Enhanced`, `excess` | invariants of the accumulation (order of the maps, mass fractions), soundness and completeness of the list of sources, agreement of the factors through C71 and C84 |
| C86-C101 | the parts of C09, C11, C26, C28, C29, C33, C35, C38, C39, C41, C48, C49, C53, C54, C64 that the code violates, stated as properties of their own (same models) | concrete counter-examples, or the exact behaviour for all inputs; `_partial` theorems for what holds |
| C102-C110 | installing tables of mass attenuation coefficients (Install.lean): edge extraction, the new energy grid, the rescaling of the shells, the library call and the file call | exact characterisations by induction over the loops; counter-examples for the violated ones |
| C111-C113 | what EPDL97 returns after its files have been loaded (EPDL97Load.lean): binding energies, the table of an element, the totals | induction over labels, rows and scans; specification of label matching by infix and prefix of the capitalised label |
| C114-C118 | Signs and ranges of coefficients, transmissions and efficiencies; overloads of getMultilayerFluorescence; composition of layers | `MultilayerParts.lean`: bounds through the interpolation, mixture and product lemmas; requests position by position |
| C119-C125 | The constructors of Elements: the table of predefined elements, EPDL97 and shell files from a file system (Init.lean) | `InitProps`, `InitTables`, `InitShells`, `InitFiles`: what each element of the result is, through the loaders of C79-C82, C112; frame lemmas for the files of the other shells; `InitExamples`: a directory that is accepted |
| C126 | references handed out by an element (ElementRefs.lean) | a reference names a node of the shell map and its generation; induction on histories; negation for references to locals |
| C127 | construction of the library (Sound.lean) | invariant of every step of the construction: caches empty, shells under their names, line labels accepted |
| C128 | cache operations of elements and library (Caches.lean, CachesXrf.lean) | invariant: data unchanged and cached answers are those of the element without caches; two libraries whose elements answer alike give the same results |
| C129 | left-first order of evaluation (ElementOrder.lean) | induction on the energies; negation by a witness |
| C130 | deBoerD without NDEBUG (MathDebug.lean) | convergents bounded by invariants of the recurrence, logarithm bounds, Bernstein certificates on [0,1] |
| C131 | E1, deBoerD, the continued fraction against the integral (MathE1.lean, MathE1Small.lean) | remainders of the convergents are positive integrals with the same recurrence (integration by parts), determinant, growth of the numerators; Taylor polynomial below 1 |
| C132 | En (MathEn.lean) | induction on the order with the recurrence of the integrals; negation by a witness |
| C133 | E1 below 0 (MathEn.lean) | fundamental theorem of calculus, tail of the exponential series |
| C134 | AS_5_1_56 (MathEn.lean) | bounds of the integral; negation by a witness |
| C135 | deBoerL0 against the double integral (MathL0.lean; MathL0Jump.lean where the two approximations meet) | primitives with a singularity at 0, propagation of the error of C131 |
| C136 | deBoerL0, thick and thin targets (MathL0.lean) | limit of the closed form; bounds of the integral |
| C137 | deBoerV and deBoerX with the principal value of E1 (MathPV, MathX, CrossSign) | mixed antiderivative, limit at the corner, error propagation; sign: the neglected terms are convex and pointwise below the exponential integral |
| C138 | attribute setters and getters of Element | induction over histories: each attribute equals the last accepted argument |
| C139 | the three overloads of both transition setters of Shell, and through Element | insertions under distinct keys commute (induction over permutations) |
| C140 | erf and erfc against the Gaussian integrals | derivative of a degree 24 fit compared with exp(-z^2) for all z, fit compared with the code for all t; polynomial inequalities by a verified test evaluated in the kernel |
| C141 | secondaryGeometry against a double integral over depths (SecondaryIntegral), sums over whole samples (SecondarySample, SecondaryReturns, SecondaryExample) | interval integrals split into triangles, substitution, C135, C137 |
| C142 | getLines, getFactors (ElementEmission) | induction over shells and ratios, separate labels |
| C55,C89,C90,C92,C96 | what holds beyond the violations (Remaining.lean) | sums over the parsed map; simulation between the states of the reader on the file with and without comments |
| C100 | getMultilayerFluorescence with request strings (Requests.lean) | an empty family makes every threshold lookup throw; exact characterisation of the strings with a family |
| C110 | installation from a file (InstallSafe.lean) | induction over the scans with C107 for each of them |
| C143 | shells of an element as the result of shell calls (ShellCore.lean, Conserve.lean), carried through the histories of an element and the construction of a library | invariant by induction over the calls and over the files; weak duality for the sum over the cascade |
| C144 | calls of the Python classes with and without `except +` (Python.lean) | evaluation of the wrappers for all arguments |
| C145,C146 | argument handling of PyXRF.getFluorescence | case analysis on text/list arguments, C118 for the C++ part |
| C147,C148 | setBeam of both classes, setGeometry | C06/C07 for the vectors that the wrappers make |
| C149 | user tables | induction over the list of tables |
| C150,C151 | wrappers of PyElements and PyLayer | evaluation; induction over compositions |
| C152 | initializeAsPyMca with the pointer as live or freed | induction over the files, same file contents under two paths |
| C153 | cache size and flags of Element and Elements (CacheSize.lean) | set of keys of the sorted cache, induction over the energies |
| C154 | lists of layers in PyXRF (PythonMore.lean) | induction over the items; classification of each conversion |
| C155 | PyMaterial | permutation between dictionary and std::map, with C01 |
| C156 | constructor of PyElements | case analysis over the arguments left out |
| C157 | a sample and the same sample with one layer split (model of getMultilayerFluorescence) | the closed forms of C71-C73; the depth integral of a layer splits at the border; Beer-Lambert products |
| C158 | threads of Python around getMultilayerFluorescence with the lock released (interleaving machine; the code is any program that reads the three objects and computes the model of C70-C77) | invariant: what remains of a calculation, run on the present objects, gives the result fixed at the call; induction over the events |
| C159 | loop of getCompositionFromFormula reading optional masses | refinement to the library model; induction over the formula |
| C160 | order of beam filters, attenuators and user-supplied tables in the whole calculation | refinement order on outcomes (MultilayerMono.calculate_le), permutation induction on the filter and efficiency loops; equality in ordered field of products |
| C162 | everything in the result but efficiencies and rates, for configurations that differ in the detection | erasure simulation of the whole calculation (Bare.calculate_still), closed forms of efficiency and rates |
| C163 | beam filters against weights of the beam | order of filters (C160) and computation of the filter loop |
| C164 | lines, primary excitation and efficiency of a layer against the layers below | closed forms of C71-C73 |
| C165,C166,C167 | what readConfigurationFromFile does with beam, angles, detector and user tables (Config.lean) | the loops are followed entry by entry: the beam loop by induction from the last row, the attenuator and concentration loops as "last entry wins", the tables as a filtered map of the sections (ConfigBeam, ConfigGeometry, ConfigTables) |
| C161 | adding materials and elements against the name resolution, the coefficients and the whole calculation (Extend) | the extended library gives what the old one gave, function by function, then monotonicity of the calculation; a material named like an element as counterexample |
| C168-C170 | conversion of nested dictionaries, search of the data directories, defaults of PyMath (PythonTools) | induction on nested objects and paths; the search is `find?` over the candidates; the thick limit of C136 |
| C171,C172 | two configurations whose layers have the same compositions, mass thicknesses and covered fractions | the whole calculation is rewritten with the mass thickness put into the density (`lump`); equality of outcomes, no hypothesis on the data |
| C173 | two configurations that differ in the mass thickness of one layer | closed formula of C71, monotonicity of the depth integral and of Beer-Lambert |
| C174 | two configurations that differ in the beam, the beam filters and the user tables | lines and closed formula of C71/C72 are monotone in the weights; a transmission is between 0 and 1 (C115) |
| C175 | two lists of requests that differ in the layers | the closed formulas of C71, C72, C73, C84 use the layer only through `Asked` |
| C176,C177 | two calculations that differ in the options | closed formulas of C71, C72, C73, C84: the fraction is a factor, the other options do not occur |
| C178 | calculation limit of the secondary excitation | from the closed formula C84: the sources selected by the two limits, sum by sum |
| C179,C180,C181,C182 | infinite values and NaN in the setters of layers, detectors, materials, beams and tables (NotANumber.lean: doubles with IEEE comparisons) | case analysis on the special values; folds; requirement of std::sort on the comparison; embedding of the models over numbers |
| C183-C186 | Rounded versions of setComposition, setBeam, setRadiativeTransitions and getTransmission, over every rounding (Rounding.lean; IEEE double is shown to be one) | induction over the rounded sums, Bernoulli inequality for the accumulated error, monotonicity of the rounding for the bounds 0 and 1 |
| C187 | Rounded versions of Layer::getTransmission and of the filters (RoundingTransmission) | monotonicity of the rounding; for IEEE double the sum of the two parts is at most 1 + 2^-54, which rounds to 1 |
| C188 | PyShell, PySimpleIni: setters with str/bytes, getters as dictionaries of bytes | case analysis on texts, lookups in mapped lists; refuted for str |
| C189 | PyTransmissionTable: names, dictionary, lists, numbers or lists of energies | induction on the filling loop for sorted rows |
| C190 | PyElements: all methods but those of C150, C151; the calls as a type, one interpreter for C++ and one for Python | case analysis on the calls, induction on histories; one call refuted for str |
| C191 | PyElement: the constructor, the setters as steps on the element with their conversions, the getters | each call with names as bytes is an operation of the C++ element (by cases), histories by induction; refusals and keys for every element |
| C192 | the detector of Python (PyDetector.pyx) over the C++ detector | settings by induction over the calls; the kept answers by the coherence invariant of C11 |
| C193 | PyXRF: constructor, reading a file, all calls that set something | one call by cases against a new object, histories by induction |
| C194 | PyXRF.getMultilayerFluorescence and getFluorescence over the calculation of C++ | composition of the parsing of requests (C54), the overloads (C116), the calculation and the nested dictionaries (C169) |
| C195 | coefficients, transmission, composition and solid angle in PyXRF | the answers of C++ looked up under their names, one energy against several, the formula of the transmission, histories of settings through `xrfRun` |
| C196 | the object PyEPDL97 | calls of Python translated to histories of C++; what is set comes back |
| C197 | coefficients and weights of PyEPDL97 | dictionaries compared place by place with the answers for each energy; the "mu ..." copies are modelled here |
| C198 | whole specfiles as text (SpecfileRound.lean), PySimpleSpecfile.pyx | the blocks of the written text by induction over the scans; then C39, C63 and C94 |
| C199 | PyLayer: constructor, setMaterial, getComposition, getPeakFamilies, getTransmission (PythonLayerObject.lean) | history of materials as a run of C++ calls, then C09, C67, C69, C86 |
| C200 | Shell::getFluorescenceYield and getShellConstants after any history (ShellYield.lean) | induction on the calls; separate specification of the last value given for a constant |
| C75,C76 | vector overloads (VectorApi.lean) | the loop equals the calls one by one; negation for short weights |

(C59 was dropped: it duplicated C45.)

Violations. When the code breaks a property, the theorem `Cxx_..._violated` is the negation, with a
concrete witness computed by the kernel, and `Cxx_..._partial` (or the theorem listed in MANIFEST.json) is the strongest
part found to hold. Such claims have status `partial` in MANIFEST.json.

## 3. What is modelled and what is not

### Modelled, per source file

| source | model | left out |
|--------|-------|----------|
| fisx_beam.cpp | Beam.lean (all setters, normalisation, sorting as a parameter that sorts) | `getBeam`, which returns the rays (the field `rays`); `operator<<` |
| fisx_detector.cpp | Detector.lean | `getDiameter`, `getDistance` (they return fields); `operator<<` |
| fisx_element.cpp | Element.lean, ElementRefs.lean (references), ElementInfo.lean (descriptive attributes), ElementOrder.lean (evaluation order in the cache filling), CacheSize.lean | the 4 argument `setMassAttenuationCoefficients` (206-213), `setTotalMassAttenuationCoefficient` (307-319, throws on every path) |
| fisx_elements.cpp | Library.lean, Formula.lean (`parseFormula`), Loader.lean (shell data files), Install.lean (coefficients), Init.lean (constructors and default elements) | `getElementCopy`, `getMaterialCopy` |
| fisx_epdl97.cpp | EPDL97.lean | the constructor with a directory (it calls `setDataDirectory`, which is modelled), `toUpperCaseString` |
| fisx_layer.cpp | Layer.lean, LayerLibrary.lean | `hasMaterialComposition`, `operator<<` |
| fisx_material.cpp | Material.lean | plain getters, `operator<<` |
| fisx_math.cpp | MathFn.lean, MathDebug.lean (the branch compiled without NDEBUG) | `isNumber` (NaN is not modelled) |
| fisx_multilayer.cpp | Multilayer.lean, MultilayerEnv.lean | printing |
| fisx_shell.cpp | Shell.lean, ShellOverloads.lean | default constructor, `getShellConstants`, `StringToInteger` |
| fisx_simpleini.cpp, fisx_simpleini.h | Ini.lean | opening the file (its lines are an argument) |
| fisx_simplespecfile.cpp | Specfile.lean | opening the file (its text is an argument) |
| fisx_transmissiontable.cpp | TransmissionTable.lean | plain getters |
| fisx_xrf.cpp, fisx_xrfconfig.cpp | Xrf.lean, Config.lean | `getConfiguration`, `printConfiguration`, `operator<<` |
| fisx_defaultelementsinfo.h | Init.lean (the table, with decimal numbers as fractions) | - |
| python/cython/*.pyx, *.pxd, python/fisx/FisxCythonTools.py, DataDir.py | Python.lean, PythonMore.lean, PythonTools.lean, PythonShell.lean, PythonElements.lean, PythonCaches.lean, PythonElement.lean, PythonResults.lean, PythonDetector.lean, PythonXrf.lean, PythonLayer.lean, PythonEPDL.lean, SpecfileRound.lean: the wrappers named in C144 to C152, C154 to C156, C168 to C170, C188 to C199 | the other wrappers, NumPy arguments, reference counting, Python 2 |
| fisx_version.cpp, examples, setup.py, build scripts | - | all |

### Not modelled at all

* Floating point: rounding (except in RoundingProps.lean and RoundingTransmission.lean, where the normalisations, the interpolation in a transmission table and transmissions are computed with any rounding, IEEE double among them, without limits of the exponent), overflow, underflow, NaN, infinities (except where `Layer.Ext` models a division by zero as infinite, and in NotANumber.lean, where the arguments of the setters of layers, detectors, materials, beams and tables may be infinite or NaN).
  `std::exp`, `std::log`, `std::sqrt`, `std::sin` are the real functions, or arbitrary functions (`Trans`, `Trig`) where a
  theorem does not need to know them.
* `strtod` and `std::stringstream` number parsing: arbitrary functions from texts to numbers.
* `std::sort`: any function returning a sorted permutation.
* Opening files, the file system (a function from names to contents), environment variables, printing, the contents of
  messages of exceptions (only their class is kept).
* Running out of memory, time, threads beyond C158 (but see C23 for the function-static variable), destructors.
* Undefined behaviour is an outcome of its own; nothing is said about what follows it.

### How the theorems use computation

Examples and witnesses are evaluated by the kernel (`decide +kernel`, `rfl`). PolyCheck.lean contains a test for polynomial
inequalities on an interval, proved sound there, and evaluated by the kernel for the coefficients of fisx_math.cpp: the
result is a proof for all real numbers of the interval, not a sample.

## 4. How the theorems were tested

seeded/LOG.jsonl has one line per edit of the model that a realistic bug would make, with the theorems that failed. Edits that
no theorem noticed led to the tightened or new theorems named in `tightened`.

## 5. Findings

The claims with status `partial` in MANIFEST.json are mostly properties that the code breaks; the theorems
`Cxx_..._violated` give the inputs. The ones with the worst consequences:

* undefined behaviour reachable from the API: C07, C51, C58, C76, C81, C107, C110, C118, C145, C152, C154 (the same holds for every argument of the Python
  methods declared with a class of the interface: `None` passes the type test); uninitialised members: C42, C44,
  C138;
* a call that does not return: C30 (materials that contain each other);
* stale caches: C18, C19, C34, C87, C129;
* wrong results: C27, C37, C56, C66, C80, C92, C94, C95, C101, C103, C105, C113, C132, C134, C136, C140, C150;
* data lost or changed by a call that fails: C14, C65, C82, C88, C106;
* from Python: a C++ exception ends the process (C144), documented calls that always fail (C149, C151), files that are ignored
  (C156).
