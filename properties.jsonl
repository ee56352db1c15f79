{"id": "C01", "title": "Material composition is normalised", "statement": "After a successful Material::setComposition (map overload, or names/amounts overload with distinct names) the composition returned by getComposition has strictly positive mass fractions that sum to one and are proportional to the supplied amounts.", "quantifier": "every list of component names and amounts (any length), every previous state of the material", "why_tests_cant": "The claim ranges over an infinite set of inputs; a unit test samples a handful of literals and cannot exclude the remaining ones.", "anchors": ["src/fisx_material.cpp:Material::setComposition", "src/fisx_material.cpp:Material::getComposition"]}
{"id": "C02", "title": "Material setters are all-or-nothing and keep the material valid", "statement": "A Material setter that throws leaves name, density, thickness and composition as they were; setName cannot rename a material that has a name (re-initialisation with another name is allowed by the code and is the only way to rename); an initialised material always has a non-empty name, a positive density and a positive thickness, and its composition is either empty or has positive fractions.", "quantifier": "every sequence of Material API calls, successful or throwing", "why_tests_cant": "The claim ranges over every finite sequence of API calls (including failing ones); tests exercise a few fixed call sequences.", "anchors": ["src/fisx_material.cpp:Material::initialize", "src/fisx_material.cpp:Material::setName", "src/fisx_material.cpp:Material::setComposition"]}
{"id": "C03", "title": "Transmission lookup is an interpolation of the table", "statement": "TransmissionTable::getTransmission returns exactly the tabulated value at each tabulated energy, the first value below the table, the last value above it, a value between the two neighbouring tabulated values everywhere else, and 1 for an empty table.", "quantifier": "every accepted table (any number of rows) and every energy", "why_tests_cant": "The claim ranges over an infinite set of inputs; a unit test samples a handful of literals and cannot exclude the remaining ones.", "anchors": ["src/fisx_transmissiontable.cpp:TransmissionTable::getTransmission"]}
{"id": "C04", "title": "Transmission table setters are all-or-nothing and keep the table physical", "statement": "A setTransmissionTable call that throws leaves the table, the name and the comment unchanged; after any sequence of calls all energies and transmissions in the table are non-negative, so getTransmission never returns a negative number; a table given a name through a setter keeps it against any later setTransmissionTable call.", "quantifier": "every sequence of constructor/setName/setComment/setTransmissionTable calls", "why_tests_cant": "The claim ranges over every finite sequence of API calls (including failing ones); tests exercise a few fixed call sequences.", "anchors": ["src/fisx_transmissiontable.cpp:TransmissionTable::setTransmissionTable"]}
{"id": "C05", "title": "No row of an accepted transmission list is lost", "statement": "When the list overload of setTransmissionTable accepts its rows, every supplied transmission value is present in the resulting table: at its energy, or for a repeated energy at an energy one millionth of keV higher.", "quantifier": "every accepted pair of energy/transmission lists, with any number of repeated energies", "why_tests_cant": "The claim ranges over an infinite set of inputs; a unit test samples a handful of literals and cannot exclude the remaining ones.", "anchors": ["src/fisx_transmissiontable.cpp:TransmissionTable::setTransmissionTable"]}
{"id": "C06", "title": "A stored beam is sorted, normalised and complete", "statement": "After Beam::setBeam the beam read back is sorted by increasing energy, contains one ray for each supplied energy with its own characteristic flag and divergency, has weights proportional to the supplied ones, and these weights sum to one whenever the supplied total is positive.", "quantifier": "every list of energies, weights, characteristic flags and divergencies", "why_tests_cant": "The claim ranges over an infinite set of inputs; a unit test samples a handful of literals and cannot exclude the remaining ones.", "anchors": ["src/fisx_beam.cpp:Beam::setBeam", "src/fisx_beam.cpp:Beam::normalizeBeam"]}
{"id": "C07", "title": "setBeam never reads outside the supplied vectors", "statement": "Beam::setBeam reads only existing elements of the optional weight, characteristic and divergency vectors whatever their lengths.", "quantifier": "every combination of lengths of the four vectors", "why_tests_cant": "An out-of-bounds read normally returns garbage without failing a test; the claim is about all length combinations.", "anchors": ["src/fisx_beam.cpp:Beam::setBeam"]}
{"id": "C08", "title": "Layer transmission is a transmission", "statement": "For positive density and thickness, non-negative attenuation and a funny factor between 0 and 1, Layer::getTransmission returns a number in (0,1] (strictly below 1 when the attenuation and factor are positive), non-increasing in density, thickness, attenuation and factor; with factor 1 two stacked layers of the same material transmit the product of their transmissions; scalar and vector overloads agree; a non positive mass thickness is rejected.", "quantifier": "every density, thickness, attenuation coefficient, funny factor and angle", "why_tests_cant": "The claim ranges over an infinite set of inputs; a unit test samples a handful of literals and cannot exclude the remaining ones.", "anchors": ["src/fisx_layer.cpp:Layer::getTransmission"]}
{"id": "C09", "title": "Layer density and thickness resolution", "statement": "A density or thickness explicitly set on a layer (or given to its constructor) is the one reported, whatever the order in which the material and the values are set.", "quantifier": "every sequence of constructor, setMaterial, setDensity, setThickness calls", "why_tests_cant": "The claim ranges over every finite sequence of API calls (including failing ones); tests exercise a few fixed call sequences.", "anchors": ["src/fisx_layer.cpp:Layer::setMaterial", "src/fisx_layer.cpp:Layer::setDensity", "src/fisx_layer.cpp:Layer::setThickness"]}
{"id": "C10", "title": "Detector active area and diameter are consistent", "statement": "Setting the diameter d and reading the area gives pi d^2/4; setting an area and reading it back returns the same area; negative values are rejected and leave the detector unchanged; distance is always positive once set.", "quantifier": "every non-negative area/diameter and every sequence of setter calls", "why_tests_cant": "The claim ranges over every finite sequence of API calls (including failing ones); tests exercise a few fixed call sequences.", "anchors": ["src/fisx_detector.cpp:Detector::setActiveArea", "src/fisx_detector.cpp:Detector::getActiveArea", "src/fisx_detector.cpp:Detector::setDiameter"]}
{"id": "C11", "title": "The detector escape cache is transparent", "statement": "For a fixed elements library, Detector::getEscape returns what a detector without cache would compute with the current material, thresholds and energy, after any sequence of configuration changes and previous queries with any labels and update flags (with the evaluation order of C++17, the right side of the assignment to the cache first).", "quantifier": "every sequence of detector setters and getEscape calls", "why_tests_cant": "The claim ranges over every finite sequence of API calls (including failing ones); tests exercise a few fixed call sequences.", "anchors": ["src/fisx_detector.cpp:Detector::getEscape", "src/fisx_detector.cpp:Detector::setMinimumEscapePeakIntensity"]}
{"id": "C12", "title": "Fluorescence ratios of a shell are normalised", "statement": "After a successful setRadiativeTransitions with non-negative rates, the fluorescence ratios of the shell are positive, proportional to the supplied rates, exclude the TOTAL entry, and sum to one when at least one rate is positive.", "quantifier": "every list of transition labels and rates accepted by the shell", "why_tests_cant": "The claim ranges over an infinite set of inputs; a unit test samples a handful of literals and cannot exclude the remaining ones.", "anchors": ["src/fisx_shell.cpp:Shell::setRadiativeTransitions", "src/fisx_shell.cpp:Shell::getFluorescenceRatios"]}
{"id": "C13", "title": "Non-radiative ratios of a shell are normalised per channel", "statement": "After a successful setNonradiativeTransitions every positive rate other than TOTAL belongs to exactly one channel: the Coster-Kronig group of one outer subshell or the Auger transitions. The ratios of each Coster-Kronig group are its rates divided by their sum and sum to one when the group is not empty; the Auger ratios are the rates divided by TOTAL minus the Coster-Kronig rates: for non-negative rates they sum to one when TOTAL is not supplied by the caller and to at most one when the supplied TOTAL is at least the sum of the rates.", "quantifier": "every map of non-radiative transitions", "why_tests_cant": "The claim ranges over an infinite set of inputs; a unit test samples a handful of literals and cannot exclude the remaining ones.", "anchors": ["src/fisx_shell.cpp:Shell::setNonradiativeTransitions", "src/fisx_shell.cpp:Shell::_updateNonradiativeRatios"]}
{"id": "C14", "title": "Shell setters are all-or-nothing", "statement": "A Shell setter (radiative transitions, non-radiative transitions, shell constants) that throws leaves all observable shell data as before the call.", "quantifier": "every sequence of shell setter calls", "why_tests_cant": "The claim ranges over every finite sequence of API calls (including failing ones); tests exercise a few fixed call sequences.", "anchors": ["src/fisx_shell.cpp:Shell::setRadiativeTransitions", "src/fisx_shell.cpp:Shell::setShellConstants"]}
{"id": "C15", "title": "Vacancy transfer is bounded", "statement": "After any history of valid setter calls leaving non-negative yields that add up to at most one and non-negative rates with a TOTAL not below their sum, the average number of vacancies transferred directly from a shell to a given subshell is non-negative, and the sum over any set of distinct destination subshells is at most 2 per initial vacancy.", "quantifier": "every shell with non-negative transition data and yields, every set of destination subshells", "why_tests_cant": "The claim ranges over an infinite set of inputs; a unit test samples a handful of literals and cannot exclude the remaining ones.", "anchors": ["src/fisx_shell.cpp:Shell::getDirectVacancyTransferRatios"]}
{"id": "C16", "title": "Cascade propagation is causal, monotone and linear", "statement": "When all direct transfer ratios are non-negative (shown to follow from sensible shell data), the cascade-modified vacancy distribution satisfies the balance: final vacancies of a shell = its initial ones plus the sum over inner shells of transfer ratio times their final vacancies. Hence no vacancy count decreases, a shell is not affected by anything in outer shells, and the cascade of a non-negative combination of distributions is the combination of their cascades.", "quantifier": "every element, every non-negative vacancy distribution and all shell data with non-negative transfer ratios", "why_tests_cant": "The claim ranges over an infinite set of inputs; a unit test samples a handful of literals and cannot exclude the remaining ones.", "anchors": ["src/fisx_element.cpp:Element::getCascadeModifiedVacancyDistribution"]}
{"id": "C17", "title": "Cascade cache does not change emitted lines", "statement": "With a cascade cache filled from the current data, the X-ray lines (labels, energies and rates) computed with cascade and yields from any non-negative vacancy distribution over the shells of the element (plus 'all other') are the same as without cache, provided the element's shells are contiguous from K and no line label is stored in two shells. (Without those provisos it is false: counterexamples are proved.)", "quantifier": "every such element and every non-negative vacancy distribution over its shells", "why_tests_cant": "The claim ranges over an infinite set of inputs; a unit test samples a handful of literals and cannot exclude the remaining ones.", "anchors": ["src/fisx_element.cpp:Element::getXRayLinesFromVacancyDistribution", "src/fisx_element.cpp:Element::fillCascadeCache"]}
{"id": "C18", "title": "Cascade cache never serves outdated data", "statement": "After any sequence of setter calls on an element with the cascade cache enabled, the emitted lines correspond to the current shell data.", "quantifier": "every sequence of element setter, cache and query calls", "why_tests_cant": "The claim ranges over every finite sequence of API calls (including failing ones); tests exercise a few fixed call sequences.", "anchors": ["src/fisx_element.cpp:Element::setCascadeCacheEnabled", "src/fisx_element.cpp:Element::emptyCascadeCache", "src/fisx_element.cpp:Element::setRadiativeTransitions", "src/fisx_element.cpp:Element::setNonradiativeTransitions"]}
{"id": "C19", "title": "Calculation cache of an element is transparent", "statement": "Mass attenuation coefficients and excitation factors returned by an element with cache enabled are those a cache-less element with the same data would return, after any sequence of data changes, cache fills and queries.", "quantifier": "every sequence of element setter, cache and query calls", "why_tests_cant": "The claim ranges over every finite sequence of API calls (including failing ones); tests exercise a few fixed call sequences.", "anchors": ["src/fisx_element.cpp:Element::fillCache", "src/fisx_element.cpp:Element::updateCache", "src/fisx_element.cpp:Element::clearCache", "src/fisx_element.cpp:Element::setBindingEnergies"]}
{"id": "C20", "title": "The element cache is bounded", "statement": "The number of cached energies never exceeds the cache maximum whatever the sequence of fillCache/updateCache calls, and a failed fill restores the enabled flag.", "quantifier": "every sequence of cache operations and every energy list", "why_tests_cant": "The claim ranges over every finite sequence of API calls (including failing ones); tests exercise a few fixed call sequences.", "anchors": ["src/fisx_element.cpp:Element::fillCache", "src/fisx_element.cpp:Element::updateCache", "src/fisx_element.h:cacheMaximumSize"]}
{"id": "C21", "title": "Initial photoelectric vacancies are a probability distribution", "statement": "For an element that only received non-negative partial photoelectric coefficients, the initial photoelectric vacancy distribution at any energy has exactly the ten documented entries, all non-negative, that sum to one (including 'all other'), or all of them are zero when there is no photoelectric absorption; with the cache enabled or not.", "quantifier": "every table of partial photoelectric coefficients and every energy", "why_tests_cant": "The claim ranges over an infinite set of inputs; a unit test samples a handful of literals and cannot exclude the remaining ones.", "anchors": ["src/fisx_element.cpp:Element::getInitialPhotoelectricVacancyDistribution"]}
{"id": "C22", "title": "Interpolation brackets the query", "statement": "For every sorted energy table with at least two points and every energy, the pair of indices used for interpolation are valid consecutive indices and bracket the energy when it is inside the table; log-log interpolation is exact at the nodes and between the neighbouring values inside.", "quantifier": "every ascending table of any length and every energy", "why_tests_cant": "The claim ranges over an infinite set of inputs; a unit test samples a handful of literals and cannot exclude the remaining ones.", "anchors": ["src/fisx_element.cpp:Element::getInterpolationIndices", "src/fisx_element.cpp:Element::getMassAttenuationCoefficients"]}
{"id": "C23", "title": "Evaluated-data interpolation is independent of call history", "statement": "The cross sections returned by EPDL97 for an element and energy do not depend on the energies previously requested (from this or any other instance), and the interpolation never reads outside the table.", "quantifier": "every ascending energy grid, every energy and every sequence of previous queries", "why_tests_cant": "The implementation remembers the last index in a function-level static variable, so the claim quantifies over all call histories and interleavings, not over inputs.", "anchors": ["src/fisx_epdl97.cpp:EPDL97::getInterpolationIndices"]}
{"id": "C24", "title": "Element library is a map from names to last added element", "statement": "isElementNameDefined, getElement and getElementNames behave as an insertion ordered map: names are unique, an element added twice is replaced in place, getElement returns the last added data and throws for an unknown name.", "quantifier": "every sequence of addElement/query calls", "why_tests_cant": "The claim ranges over every finite sequence of API calls (including failing ones); tests exercise a few fixed call sequences.", "anchors": ["src/fisx_elements.cpp:Elements::addElement", "src/fisx_elements.cpp:Elements::getElement", "src/fisx_elements.cpp:Elements::getElementNames"]}
{"id": "C25", "title": "Material library keeps names unique", "statement": "After any sequence of addMaterial/removeMaterial/setMaterialComposition calls no two library materials have the same name, getMaterial returns the last material added under that name, and removing a material makes exactly that name unknown.", "quantifier": "every sequence of material library calls", "why_tests_cant": "The claim ranges over every finite sequence of API calls (including failing ones); tests exercise a few fixed call sequences.", "anchors": ["src/fisx_elements.cpp:Elements::addMaterial", "src/fisx_elements.cpp:Elements::removeMaterial", "src/fisx_elements.cpp:Elements::getMaterial"]}
{"id": "C26", "title": "A rejected addMaterial(material) does not damage the library", "statement": "If addMaterial with a material object throws, the set of defined materials is the one before the call; no addMaterial, successful or not, changes a material of another name.", "quantifier": "every library state, every name, density, thickness and replace flag", "why_tests_cant": "The claim ranges over every finite sequence of API calls (including failing ones); tests exercise a few fixed call sequences.", "anchors": ["src/fisx_elements.cpp:Elements::addMaterial"]}
{"id": "C27", "title": "Chemical formulas are parsed according to their grammar", "statement": "parseFormula of a well formed formula (element symbols, decimal counts, nested parenthesised groups with counts) returns exactly the number of atoms of each element; malformed strings return an empty map and every call terminates.", "quantifier": "every well formed formula of any length and nesting depth, and every other string", "why_tests_cant": "The claim ranges over an infinite set of inputs; a unit test samples a handful of literals and cannot exclude the remaining ones.", "anchors": ["src/fisx_elements.cpp:Elements::parseFormula"]}
{"id": "C28", "title": "Formula composition gives normalised mass fractions", "statement": "getCompositionFromFormula of a parseable formula of known elements with positive numbers of atoms returns positive mass fractions that sum to one, equal to n_i M_i / sum n_j M_j; if any element is unknown the result is empty.", "quantifier": "every parse result and every table of atomic masses", "why_tests_cant": "The claim ranges over an infinite set of inputs; a unit test samples a handful of literals and cannot exclude the remaining ones.", "anchors": ["src/fisx_elements.cpp:Elements::getCompositionFromFormula"]}
{"id": "C29", "title": "Nested materials are flattened to elements with conserved mass", "statement": "getComposition of a defined material returns the element mass fractions obtained by recursively substituting materials and formulas; they are positive and sum to one; if a component is unknown the result is empty.", "quantifier": "every library of materials, nested to any depth", "why_tests_cant": "The claim ranges over an infinite set of inputs; a unit test samples a handful of literals and cannot exclude the remaining ones.", "anchors": ["src/fisx_elements.cpp:Elements::getComposition"]}
{"id": "C30", "title": "getComposition terminates", "statement": "getComposition terminates for every library of materials that can be built through the API.", "quantifier": "every sequence of addMaterial/setMaterialComposition calls followed by a query", "why_tests_cant": "The claim ranges over every finite sequence of API calls (including failing ones); tests exercise a few fixed call sequences.", "anchors": ["src/fisx_elements.cpp:Elements::getComposition"]}
{"id": "C31", "title": "Mass attenuation of mixtures obeys the mixture rule", "statement": "The mass attenuation coefficients of a composition are the mass fraction weighted sums of those of its elements for each process, the total is the sum of the processes, scaling all the amounts changes nothing, and mixing two mixtures gives the mixture of their coefficients; negative amounts are rejected.", "quantifier": "every composition (any number of elements), all element tables and energies", "why_tests_cant": "The claim ranges over an infinite set of inputs; a unit test samples a handful of literals and cannot exclude the remaining ones.", "anchors": ["src/fisx_elements.cpp:Elements::getMassAttenuationCoefficients"]}
{"id": "C32", "title": "Peak families are exactly the excitable shells, ordered", "statement": "getPeakFamilies returns, for the requested elements, exactly the K, L and M shells with a positive fluorescence yield whose binding energy is positive and below the given energy, each once, sorted by binding energy; asked by name it does so for the elements of the composition.", "quantifier": "every list of elements, all binding energies and every energy", "why_tests_cant": "The claim ranges over an infinite set of inputs; a unit test samples a handful of literals and cannot exclude the remaining ones.", "anchors": ["src/fisx_elements.cpp:Elements::getPeakFamilies", "src/fisx_elements.h:sortVectorOfPairs"]}
{"id": "C33", "title": "Escape peaks are those above the intensity threshold", "statement": "Each escape peak returned is the escape of one line of one element of the detector, has the energy of the photon less that of the line (below the incoming one) and a rate above the intensity threshold and below one half; no line above the threshold is left out.", "quantifier": "every detector composition, energy and thresholds", "why_tests_cant": "The claim ranges over an infinite set of inputs; a unit test samples a handful of literals and cannot exclude the remaining ones.", "anchors": ["src/fisx_elements.cpp:Elements::getEscape"]}
{"id": "C34", "title": "The library escape cache is transparent", "statement": "Elements::getEscape returns the same with the escape cache filled, for any subset of energies and with any parameters, as without cache, for unchanged library data, whatever the sequence of calls filling, clearing, enabling and reading the cache, and for data changed in between.", "quantifier": "every sequence of updateEscapeCache/clearEscapeCache/setEscapeCacheEnabled/getEscape calls", "why_tests_cant": "The claim ranges over every finite sequence of API calls (including failing ones); tests exercise a few fixed call sequences.", "anchors": ["src/fisx_elements.cpp:Elements::getEscape", "src/fisx_elements.cpp:Elements::updateEscapeCache", "src/fisx_elements.cpp:Elements::isEscapeCacheCompatible"]}
{"id": "C35", "title": "Ini files are read faithfully", "statement": "For every well formed ini file without comments (any layout: blank lines, indentation, trailing blanks, continuation lines, quoted text, with or without a final newline) the value read for a key in a section is the text written for it, keys that are not written have no value, and sections are reported in file order; a file is rejected exactly when a section line is malformed or a double quote is not closed.", "quantifier": "every well formed ini text with any number of sections and keys", "why_tests_cant": "The claim ranges over an infinite set of inputs; a unit test samples a handful of literals and cannot exclude the remaining ones.", "anchors": ["src/fisx_simpleini.cpp:SimpleIni::readFileName", "src/fisx_simpleini.cpp:SimpleIni::readSection", "src/fisx_simpleini.cpp:SimpleIni::getSections"]}
{"id": "C36", "title": "Re-reading an ini reader forgets the previous file", "statement": "After reading a second file with the same reader, section contents come from the second file only.", "quantifier": "every pair of files and every interleaving of section reads", "why_tests_cant": "The claim ranges over every finite sequence of API calls (including failing ones); tests exercise a few fixed call sequences.", "anchors": ["src/fisx_simpleini.cpp:SimpleIni::readFileName", "src/fisx_simpleini.cpp:SimpleIni::readSection"]}
{"id": "C37", "title": "Case-insensitive section access", "statement": "With case-insensitive access a section is found iff some section name equals the requested one up to case, and its content is the one of that section.", "quantifier": "every set of section names and every requested name", "why_tests_cant": "The claim ranges over an infinite set of inputs; a unit test samples a handful of literals and cannot exclude the remaining ones.", "anchors": ["src/fisx_simpleini.cpp:SimpleIni::readSection"]}
{"id": "C38", "title": "Subsections are found, ignoring case", "statement": "getSubSections(parent) without case sensitivity returns exactly the sections whose name starts with parent followed by a dot up to case, in file order; without parent it returns all the sections.", "quantifier": "every set of section names and every parent", "why_tests_cant": "The claim ranges over an infinite set of inputs; a unit test samples a handful of literals and cannot exclude the remaining ones.", "anchors": ["src/fisx_simpleini.cpp:SimpleIni::getSubsections"]}
{"id": "C39", "title": "Specfile scans are counted and numbered", "statement": "The number of scans equals the number of lines starting with #S, scans have the numbers and the order of these lines, and other indices are rejected with invalid_argument.", "quantifier": "every specfile text", "why_tests_cant": "The claim ranges over an infinite set of inputs; a unit test samples a handful of literals and cannot exclude the remaining ones.", "anchors": ["src/fisx_simplespecfile.cpp:SimpleSpecfile::setFileName", "src/fisx_simplespecfile.cpp:SimpleSpecfile::getScanData"]}
{"id": "C40", "title": "Scan data are rectangular", "statement": "getScanData either throws or returns rows that all have the same number of columns.", "quantifier": "every specfile text and every scan index", "why_tests_cant": "The claim ranges over an infinite set of inputs; a unit test samples a handful of literals and cannot exclude the remaining ones.", "anchors": ["src/fisx_simplespecfile.cpp:SimpleSpecfile::getScanData"]}
{"id": "C41", "title": "Geometric efficiency is a solid angle fraction", "statement": "XRF::getGeometricEfficiency is the fraction of the sphere covered by the detector as seen from the emitting layer (1 for a zero diameter): it lies between 0 and 1, decreases when the detector is moved away or the emitting layer is deeper, and increases with the diameter for a layer in front of the detector.", "quantifier": "every detector diameter, distance, layer stack and layer index", "why_tests_cant": "The claim ranges over an infinite set of inputs; a unit test samples a handful of literals and cannot exclude the remaining ones.", "anchors": ["src/fisx_xrf.cpp:XRF::getGeometricEfficiency"]}
{"id": "C42", "title": "Sample and reference layer are always consistent", "statement": "A sample set on the configuration always contains its reference layer; invalid settings are rejected and leave the previous sample.", "quantifier": "every sequence of setSample calls", "why_tests_cant": "The claim ranges over every finite sequence of API calls (including failing ones); tests exercise a few fixed call sequences.", "anchors": ["src/fisx_xrfconfig.cpp:XRFConfig::setSample", "src/fisx_xrfconfig.cpp:XRFConfig::setGeometry"]}
{"id": "C43", "title": "Excitation threshold of a peak family", "statement": "The energy threshold of a family is the lowest positive binding energy of its subshells, so no line of the family can be excited below it.", "quantifier": "every element binding energies and every family name", "why_tests_cant": "The claim ranges over an infinite set of inputs; a unit test samples a handful of literals and cannot exclude the remaining ones.", "anchors": ["src/fisx_xrf.cpp:XRF::getEnergyThreshold"]}
{"id": "C44", "title": "Configuration materials do not influence each other", "statement": "Reading a configuration file defines each material from the entries of its own section only: name, density, thickness, comment and composition are those written there.", "quantifier": "every configuration file with any number of materials and layers", "why_tests_cant": "The claim ranges over an infinite set of inputs; a unit test samples a handful of literals and cannot exclude the remaining ones.", "anchors": ["src/fisx_xrfconfig.cpp:XRFConfig::readConfigurationFromFile"]}
{"id": "C45", "title": "Escape correction conserves the number of counts", "statement": "Applying the detector escape to the expected lines redistributes each line between the line itself and its escape peaks without changing the total, and leaves all rates non-negative when the escape probability is at most one.", "quantifier": "every configuration, library of sensible elements, beam, list of requests and set of options", "why_tests_cant": "The claim ranges over an infinite set of inputs; a unit test samples a handful of literals and cannot exclude the remaining ones.", "anchors": ["src/fisx_multilayer.cpp:XRF::getMultilayerFluorescence"]}
{"id": "C46", "title": "Fluorescence is additive over the beam", "statement": "The primary and secondary excitation expected for a beam is the sum of the ones expected for each ray separately, does not depend on the order in which rays are given, and scales with the ray weights; rays below the excitation thresholds of the requested families contribute nothing. The same holds for the detected rates as long as tertiary excitation is not requested.", "quantifier": "every configuration, library of sensible elements, list of requests, set of options and beam with any number of rays", "why_tests_cant": "The claim ranges over an infinite set of inputs; a unit test samples a handful of literals and cannot exclude the remaining ones.", "anchors": ["src/fisx_multilayer.cpp:XRF::getMultilayerFluorescence"]}
{"id": "C47", "title": "Secondary contributions are fully accounted", "statement": "The secondary rate of each line equals the sum of its per-source contributions, and the total rate equals primary plus secondary (times the detection efficiency).", "quantifier": "every configuration, library of sensible elements, beam, list of requests and set of options", "why_tests_cant": "The claim ranges over an infinite set of inputs; a unit test samples a handful of literals and cannot exclude the remaining ones.", "anchors": ["src/fisx_multilayer.cpp:XRF::getMultilayerFluorescence"]}
{"id": "C48", "title": "Exponential integral domain", "statement": "Math::E1 and Math::En return a value for every positive argument other than 1 and order n >= 1, E1 is positive, they satisfy n E_{n+1}(x) = exp(-x) - x E_n(x), and throw for n<1 or a null argument; for x > 1 the value lies between exp(-x)/(x+1) and exp(-x)/x, as the exponential integral does, and the continued fraction never divides by zero.", "quantifier": "every order and every positive argument", "why_tests_cant": "The claim ranges over an infinite set of inputs; a unit test samples a handful of literals and cannot exclude the remaining ones.", "anchors": ["src/fisx_math.cpp:Math::E1", "src/fisx_math.cpp:Math::En", "src/fisx_math.cpp:Math::_deBoerD"]}
{"id": "C49", "title": "erf and erfc are complementary", "statement": "Math::erf(x)+Math::erfc(x) = 1, erf lies strictly between -1 and 1 with the sign of x and erfc strictly between 0 and 2, for every x; erf(-x) = -erf(x) for every x other than 0.", "quantifier": "every real argument", "why_tests_cant": "The claim ranges over an infinite set of inputs; a unit test samples a handful of literals and cannot exclude the remaining ones.", "anchors": ["src/fisx_math.cpp:Math::erf", "src/fisx_math.cpp:Math::erfc"]}
{"id": "C50", "title": "Photoelectric weights of evaluated data", "statement": "The partial photoelectric weights returned by EPDL97 for an energy are non-negative and sum to one, or are all zero.", "quantifier": "every element, every energy and all cross section tables", "why_tests_cant": "The claim ranges over an infinite set of inputs; a unit test samples a handful of literals and cannot exclude the remaining ones.", "anchors": ["src/fisx_epdl97.cpp:EPDL97::getPhotoelectricWeights"]}
{"id": "C51", "title": "Atomic number validation", "statement": "Methods of EPDL97 taking an atomic number reject every number below 1, use the element of that number or the last one loaded for higher numbers, and never read or write outside the loaded data, after every history of calls, failed ones included.", "quantifier": "every integer and every number of loaded elements", "why_tests_cant": "The claim ranges over an infinite set of inputs; a unit test samples a handful of literals and cannot exclude the remaining ones.", "anchors": ["src/fisx_epdl97.cpp:EPDL97::getBindingEnergies", "src/fisx_epdl97.cpp:EPDL97::setBindingEnergies"]}
{"id": "C52", "title": "Attenuation setters keep element tables consistent", "statement": "After setMassAttenuationCoefficients the total coefficient equals the sum of coherent, compton, pair and photoelectric at each tabulated energy, energies are in ascending order, and a rejected call leaves the table unchanged.", "quantifier": "every list of energies and coefficients", "why_tests_cant": "The claim ranges over an infinite set of inputs; a unit test samples a handful of literals and cannot exclude the remaining ones.", "anchors": ["src/fisx_element.cpp:Element::setMassAttenuationCoefficients"]}
{"id": "C53", "title": "Emitted line energies", "statement": "The energy of a transition is the difference of the two binding energies (or the documented 3 eV default for the inner minus an undefined shell), transitions of undefined shells are rejected, and lines are emitted only by shells excited at the given energy.", "quantifier": "every set of binding energies and every transition label", "why_tests_cant": "The claim ranges over an infinite set of inputs; a unit test samples a handful of literals and cannot exclude the remaining ones.", "anchors": ["src/fisx_element.cpp:Element::getTransitionEnergy", "src/fisx_element.cpp:Element::getEmittedXRayLines"]}
{"id": "C54", "title": "Peak requests are parsed", "statement": "A request 'Element', 'Element Family' or 'Element Family Layer' is turned into the element, family and layer it names, and a list of requests into the list of what they name.", "quantifier": "every list of request strings", "why_tests_cant": "The claim ranges over an infinite set of inputs; a unit test samples a handful of literals and cannot exclude the remaining ones.", "anchors": ["src/fisx_xrf.cpp:XRF::getMultilayerFluorescence"]}
{"id": "C55", "title": "Repeated names in a composition keep it normalised", "statement": "When the names/amounts overload of Material::setComposition accepts a list in which a name appears more than once, the resulting mass fractions still sum to one.", "quantifier": "all lists of names and amounts", "why_tests_cant": "Only lists with a repeated name break it and their number is unbounded.", "anchors": ["src/fisx_material.cpp: Material::setComposition(names, amounts)"]}
{"id": "C56", "title": "A shell only accepts its own transitions", "statement": "Every radiative transition stored in a shell, other than TOTAL, starts with the name of the shell; any other label makes setRadiativeTransitions throw.", "quantifier": "all shells, label lists and rates", "why_tests_cant": "The set of labels is infinite; the special handling of five character labels is a corner of it.", "anchors": ["src/fisx_shell.cpp: Shell::setRadiativeTransitions"]}
{"id": "C57", "title": "Exactly the nine documented shells can be created", "statement": "The Shell constructor succeeds for the names K, L1-L3 and M1-M5 and throws invalid_argument for every other string.", "quantifier": "all strings", "why_tests_cant": "The set of invalid names is infinite.", "anchors": ["src/fisx_shell.cpp: Shell::Shell"]}
{"id": "C58", "title": "Vacancy transfer queries are defined for all accepted data", "statement": "For every history of accepted setter calls, getDirectVacancyTransferRatios either returns, throws invalid_argument (destination not of two characters) or throws domain_error (yields above 1.0001); it never reads outside a stored label.", "quantifier": "all histories of setter calls with any labels and all destinations", "why_tests_cant": "It depends on labels stored earlier, of any length; out of bounds reads are usually silent.", "anchors": ["src/fisx_shell.cpp: Shell::getDirectVacancyTransferRatios, Shell::setNonradiativeTransitions"]}
{"id": "C60", "title": "Secondary excitation integrals of de Boer", "statement": "deBoerD is finite except at 0 and positive for positive arguments; deBoerL0 rejects non-positive coefficients, never returns a negative number and returns a value for every set of positive coefficients; deBoerX is defined for positive parameters with q different from mu1j and vanishes when one of the two layers has no thickness.", "quantifier": "all real coefficients, densities and thicknesses", "why_tests_cant": "The claim ranges over all real arguments; a unit test samples a handful of literals and cannot exclude the remaining ones.", "anchors": ["src/fisx_math.cpp:Math::deBoerD", "src/fisx_math.cpp:Math::deBoerL0", "src/fisx_math.cpp:Math::deBoerX", "src/fisx_math.cpp:Math::deBoerV"]}
{"id": "C61", "title": "Peak width", "statement": "getFWHM returns a width at least as large as the electronic noise, not decreasing with the energy, whose square is noise^2 + (2.3548)^2 energy fano quantumEnergy.", "quantifier": "all non-negative energies, fano factors and quantum energies, any noise", "why_tests_cant": "The claim ranges over all real arguments; a unit test samples a handful of literals and cannot exclude the remaining ones.", "anchors": ["src/fisx_math.cpp:Math::getFWHM"]}
{"id": "C62", "title": "Sums of evaluated coefficients", "statement": "After every history of loading calls, whenever EPDL97 returns coefficients for an element (for one energy or as a table) the photoelectric one equals the sum of the ten partial ones (K, L1-L3, M1-M5, all other) and the total equals photoelectric + coherent + compton + pair.", "quantifier": "every data file contents, history, element, energy", "why_tests_cant": "the sums must hold for every file and energy, not for the shipped files only", "anchors": ["src/fisx_epdl97.cpp: EPDL97::getMassAttenuationCoefficients"]}
{"id": "C63", "title": "Scan labels are returned as written", "statement": "getScanLabels returns, in order, exactly the labels written in the first #L line of the scan, separated by two or more blanks, whatever trailing blanks or carriage return follow, and throws runtime_error when the scan has no such line.", "quantifier": "every specfile text, every scan, every list of labels and separators", "why_tests_cant": "The claim ranges over an infinite set of inputs; a unit test samples a handful of literals and cannot exclude the remaining ones.", "anchors": ["src/fisx_simplespecfile.cpp:SimpleSpecfile::getScanLabels"]}
{"id": "C64", "title": "Layers of a configuration file", "statement": "After reading a configuration file with a section [attenuators], the beam filters, the attenuators and the sample are exactly the enabled entries of that kind, each layer with the density, thickness, factor and material of its own entry, in the order of their keys, and the reference layer is the first.", "quantifier": "every configuration file with any number of entries and every previous configuration", "why_tests_cant": "The claim ranges over all files; a unit test reads a few.", "anchors": ["src/fisx_xrfconfig.cpp:XRFConfig::readConfigurationFromFile"]}
{"id": "C65", "title": "A rejected configuration file changes nothing", "statement": "If reading a configuration file ends with an exception, the configuration is the one before the call.", "quantifier": "every previous configuration and every file content", "why_tests_cant": "The claim ranges over every place where the reading can fail and every previous state.", "anchors": ["src/fisx_xrfconfig.cpp:XRFConfig::readConfigurationFromFile"]}
{"id": "C66", "title": "Detected rates are additive over the beam with tertiary excitation", "statement": "Also when tertiary excitation is requested, the rates expected for a beam are the sum of the rates expected for each ray separately.", "quantifier": "every configuration, list of requests and beam with any number of rays", "why_tests_cant": "Additivity quantifies over all beams and samples; a test compares a few beams within a tolerance that hides the cross terms.", "anchors": ["src/fisx_multilayer.cpp:XRF::getMultilayerFluorescence"]}
{"id": "C67", "title": "A layer is made of what was given last", "statement": "Whatever setters have been called before, accepted or rejected, the composition of a layer is that of the material object given last, or of the element, formula or material whose name was given last, or of the one named like the layer when nothing has been given.", "quantifier": "every layer, library and history of setter calls", "why_tests_cant": "The claim ranges over all histories of calls, libraries and layers; tests fix one library and a few layers.", "anchors": ["src/fisx_layer.cpp:Layer::setMaterial", "src/fisx_layer.cpp:Layer::setMaterialName", "src/fisx_layer.cpp:Layer::getComposition"]}
{"id": "C68", "title": "Layer transmission follows Beer-Lambert with the mixture coefficients", "statement": "The transmission of a layer at an energy and an angle is 1 - f + f exp(-rho d mu / |sin angle|), f being its covered fraction and mu the total mass attenuation coefficient of what it is made of: the mass weighted mean over the components of its material, or that of the named element, formula or material. It is calculated whenever mu is known and the layer has a mass.", "quantifier": "every layer, library history, energy and angle whose sine does not vanish", "why_tests_cant": "The claim ranges over all histories of calls, libraries and layers; tests fix one library and a few layers.", "anchors": ["src/fisx_layer.cpp:Layer::getTransmission", "src/fisx_elements.cpp:Elements::getMassAttenuationCoefficients"]}
{"id": "C69", "title": "Peak families of a layer are those of its elements", "statement": "Layer::getPeakFamilies returns exactly the excited families of the elements of the components of the layer, in ascending order of energy and each once.", "quantifier": "every layer, library history and energy", "why_tests_cant": "The claim ranges over all histories of calls, libraries and layers; tests fix one library and a few layers.", "anchors": ["src/fisx_layer.cpp:Layer::getPeakFamilies", "src/fisx_elements.cpp:Elements::getPeakFamilies"]}
{"id": "C70", "title": "Photons below an edge do not ionise the shell", "statement": "For every element, energy and history of calls that keeps the caches valid: a subshell whose binding energy is zero or above the photon energy has partial photoelectric coefficient zero and receives no initial vacancy; every line excited is a line of a subshell whose edge is not above the energy or of a subshell further out than one of those; below all the edges nothing is emitted. getExcitedShells lists exactly the subshells with an edge strictly below the energy.", "quantifier": "all element data, energies, weights, subshells, and histories of calls with or without caches", "why_tests_cant": "The tables are arbitrary (a table may contain non-zero values below the edge, the interpolation extrapolates), the cascade moves vacancies between nine shells, and two caches may answer instead of the computation.", "anchors": ["src/fisx_element.cpp: Element::getPartialPhotoelectricMassAttenuationCoefficients", "src/fisx_element.cpp: Element::getInitialPhotoelectricVacancyDistribution", "src/fisx_element.cpp: Element::getPhotoelectricExcitationFactors", "src/fisx_element.cpp: Element::getXRayLinesFromVacancyDistribution", "src/fisx_element.cpp: Element::getExcitedShells"]}
{"id": "C71", "title": "Primary fluorescence follows the closed formula", "statement": "For every library, sample, beam, set of filters, requests and options: the primary excitation that getMultilayerFluorescence reports for a line of a requested peak family in a layer is the sum, over the rays of the beam and over the requests, of (photons of the ray behind the filters that reach the layer by Beer-Lambert through the layers above) x (mass fraction of the element, or 1 if mass fractions are not asked for, divided by the sine of the incoming angle) x (emission rate of the line per unit mass thickness) x (integral over the depth of the layer of the attenuation of the incoming and outgoing radiation). It is zero for elements not in the layer, layers not asked for and lines outside the family.", "quantifier": "all libraries with sound caches, configurations, beams, requests, options, layers and lines", "why_tests_cant": "The value is accumulated by a triple loop over rays, requests and layers into nested maps, with early exits on thresholds and weights; the sum must be right for every number of rays, layers and requests.", "anchors": ["src/fisx_multilayer.cpp: XRF::getMultilayerFluorescence", "src/fisx_element.cpp: Element::getPhotoelectricExcitationFactors"]}
{"id": "C72", "title": "Exactly the excited lines of the requested families are reported", "statement": "A (non-escape) line appears in a layer under the key \"element family\" in the result of getMultilayerFluorescence if and only if some ray of the beam excites it with a positive factor, some request names that key and that layer (or all layers), the line belongs to the family, the edge of the family is not above the energy, and the element is in the layer.", "quantifier": "all libraries with sound caches, configurations, beams, requests, options, layers and line names", "why_tests_cant": "Entries are created in nested maps by operator[] in many places of a 1200-line function, also while accumulating secondary excitation; both spurious and lost entries must be excluded for every input.", "anchors": ["src/fisx_multilayer.cpp: XRF::getMultilayerFluorescence"]}
{"id": "C73", "title": "Detection efficiency of a line", "statement": "The efficiency reported for a line in layer i is the product of the transmissions (at the energy of the line, in the outgoing direction) of the layers 0..i-1 in front of it, of the attenuators, of the user attenuator tables, of the geometric efficiency of the layer if asked for, and of the intrinsic efficiency of the detector if there is one.", "quantifier": "all libraries with sound caches, configurations, beams, requests, options, layers and lines", "why_tests_cant": "The efficiency is computed inside the loop over rays and layers and stored per line; it must be independent of the rays and of the order of the loop, for every stack of layers and attenuators.", "anchors": ["src/fisx_multilayer.cpp: XRF::getMultilayerFluorescence", "src/fisx_xrf.cpp: XRF::getGeometricEfficiency"]}
{"id": "C74", "title": "The coefficients of an element add up", "statement": "Whatever calls were made on an element before (data set, replaced or refused, caches filled, updated, enabled, disabled, cleared), the coefficients getMassAttenuationCoefficients(energy) returns carry that energy, their photoelectric entry is the sum of the entries K, L1-L3, M1-M5 and \"all other\", and their total entry is photoelectric + coherent + compton + pair. As long as no partial photoelectric coefficients were given the photoelectric entry is 0.", "quantifier": "all call histories on a new element, all energies for which coefficients are returned, cache enabled or not", "why_tests_cant": "Needs all histories, including stale cache entries; a test samples some energies.", "anchors": ["src/fisx_element.cpp:Element::getMassAttenuationCoefficients", "src/fisx_element.cpp:Element::fillCache", "src/fisx_element.cpp:Element::updateCache"]}
{"id": "C75", "title": "The overloads for several energies agree with those for one energy", "statement": "For every list of energies, the calls taking a vector of energies (coefficients and vacancy distributions of Element, coefficients and photoelectric weights of EPDL97, coefficients of a name in Elements) do exactly what the calls for each of the energies do one after the other - same values in the order of the energies under the same keys, same first exception - and getPhotoelectricExcitationFactors does so with the weight of each energy, with the common weight when one is given, with weights 1/n when none is given. The overload of setBindingEnergies taking labels and energies is the one taking a map (last value of a repeated label), or is refused without effect when the lengths differ.", "quantifier": "all objects and states, all lists of energies (any length), all weight lists at least as long as the energies or with at most one entry", "why_tests_cant": "Ranges over vectors of any length and all failing positions.", "anchors": ["src/fisx_element.cpp:Element::getMassAttenuationCoefficients", "src/fisx_element.cpp:Element::getInitialPhotoelectricVacancyDistribution", "src/fisx_element.cpp:Element::getPhotoelectricExcitationFactors", "src/fisx_epdl97.cpp:EPDL97::getMassAttenuationCoefficients", "src/fisx_epdl97.cpp:EPDL97::getPhotoelectricWeights", "src/fisx_elements.cpp:Elements::getMassAttenuationCoefficients", "src/fisx_elements.cpp:Elements::getExcitationFactors", "src/fisx_element.cpp:Element::setBindingEnergies"]}
{"id": "C76", "title": "Weights given with several energies never cause an invalid memory access", "statement": "getPhotoelectricExcitationFactors(energies, weights) reads no memory outside of the given vectors, whatever their lengths.", "quantifier": "all elements, all energy and weight vectors", "why_tests_cant": "An out-of-bounds read usually returns a plausible number in a test.", "anchors": ["src/fisx_element.cpp:Element::getPhotoelectricExcitationFactors", "src/fisx_elements.cpp:Elements::getExcitationFactors"]}
{"id": "C77", "title": "The fluorescence calculation returns when its parts can be used alone", "statement": "Without secondary excitation getMultilayerFluorescence returns a result for every beam and every list of requests naming a library element and a family, provided each part can be used alone: the element data are complete (property C78), every layer of the sample has a composition, filters, attenuators and detector have coefficients, the thicknesses are positive, the detector is above the sample and, if the geometric efficiency is used, the reference layer exists. With secondary excitation it also returns if each layer of the sample, of any number, is thick (and, above others, lets less than a thousandth of its lines through) or thin (with coefficients that, seen by the detector, differ from one another) for its coefficients at all energies. With secondary or tertiary excitation, with bad thicknesses or angles and with any requests, it either returns or throws: it never reads outside a vector, never dereferences a missing map entry and always ends, provided that holds of the queries on the parts.", "quantifier": "all libraries, configurations (any number of layers, filters, attenuators), beams, options and request lists with these provisos", "why_tests_cant": "Absence of invalid memory accesses over all samples and beams; they usually go unnoticed in a test.", "anchors": ["src/fisx_multilayer.cpp:XRF::getMultilayerFluorescence", "src/fisx_xrf.cpp:XRF::getLayerTransmission", "src/fisx_math.cpp:Math::deBoerL0", "src/fisx_math.cpp:Math::deBoerX"]}
{"id": "C78", "title": "An element with complete data answers at every energy", "statement": "If an element has coefficients for at least two energies, either no partial photoelectric data or, for every subshell, a binding energy and for the bound ones a table ending with three positive values, and if its subshells are defined from K on with their constants and with lines between shells of non-negative binding energy, then its coefficients, initial vacancies, X-ray lines of any vacancy distribution and excitation factors are returned for every energy, with and without caches: no exception, no invalid memory access.", "quantifier": "all elements meeting the conditions, all energies (also outside the tables), weights and vacancy distributions, any cache contents", "why_tests_cant": "All energies, tables of all lengths; an invalid access usually goes unnoticed in a test.", "anchors": ["src/fisx_element.cpp:Element::getMassAttenuationCoefficients", "src/fisx_element.cpp:Element::getPartialPhotoelectricMassAttenuationCoefficients", "src/fisx_element.cpp:Element::getXRayLinesFromVacancyDistribution", "src/fisx_element.cpp:Element::getPhotoelectricExcitationFactors"]}
{"id": "C79", "title": "Loading a file of shell data is calling the setters", "statement": "A load of a file of yields or transition rates for main shell K, L or M that returns has, for each element n and each subshell i, called the corresponding setter of element n with the columns of row n of scan i (in the order of the subshells), and done nothing else to the elements; the file name is then returned by the corresponding getter and no other remembered name changes. After loading yields, each yield of a column of the row is the value of the file and the others are kept. An unknown main shell, an unreadable file and a wrong number of scans are refused without any change.", "quantifier": "all file texts, all conversions of number texts, all libraries, all main shells, the three kinds of files", "why_tests_cant": "files and libraries are unbounded; the dictionary is reused between the rows, so that correctness needs an invariant on it", "anchors": ["src/fisx_elements.cpp: Elements::setShellConstantsFile, setShellRadiativeTransitionsFile, setShellNonradiativeTransitionsFile, getShellConstantsFile, getShellRadiativeTransitionsFile, getShellNonradiativeTransitionsFile"]}
{"id": "C80", "title": "A row of a file of shell data goes to the element whose atomic number it gives", "statement": "When a file of shell data is loaded, the values of a row with Z = z are those of the element of atomic number z afterwards.", "quantifier": "all file texts and libraries", "why_tests_cant": "files shipped with the library list all elements in order, so that tests with them cannot see it", "anchors": ["src/fisx_elements.cpp: Elements::setShellConstantsFile, setShellRadiativeTransitionsFile, setShellNonradiativeTransitionsFile, getShellConstantsFile, getShellRadiativeTransitionsFile, getShellNonradiativeTransitionsFile"]}
{"id": "C81", "title": "Loading a file of shell data never accesses invalid memory", "statement": "For every file text, loading it returns or throws; it never reads out of bounds.", "quantifier": "all file texts and libraries", "why_tests_cant": "out-of-bounds reads of vectors often go unnoticed", "anchors": ["src/fisx_elements.cpp: Elements::setShellConstantsFile, setShellRadiativeTransitionsFile, setShellNonradiativeTransitionsFile, getShellConstantsFile, getShellRadiativeTransitionsFile, getShellNonradiativeTransitionsFile"]}
{"id": "C82", "title": "A load of shell data that fails changes nothing", "statement": "If loading a file of shell data throws, the elements and the remembered file names are as before.", "quantifier": "all file texts and libraries, all points of failure", "why_tests_cant": "every point of failure in every file has to be considered", "anchors": ["src/fisx_elements.cpp: Elements::setShellConstantsFile, setShellRadiativeTransitionsFile, setShellNonradiativeTransitionsFile, getShellConstantsFile, getShellRadiativeTransitionsFile, getShellNonradiativeTransitionsFile"]}
{"id": "C83", "title": "Shell data of an element belong to its bound shells", "statement": "Transition rates given for a subshell without positive binding energy, and yields or rates given for a subshell the element does not have, are refused with an exception and the element is unchanged. Otherwise the call has the outcome of the same call on the shell, the shell becomes what that call makes of it, and neither the other shells nor the binding energies nor the attenuation tables change.", "quantifier": "all elements, subshell names, labels and values", "why_tests_cant": "names, labels and element states are unbounded", "anchors": ["src/fisx_element.cpp: Element::setRadiativeTransitions, setNonradiativeTransitions, setShellConstants"]}
{"id": "C84", "title": "Secondary fluorescence follows the closed formula", "statement": "For every library, sample, beam, set of filters, requests and options: the secondary excitation that getMultilayerFluorescence reports for a line in a layer is the sum, over the rays behind the filters, the requests, all the layers and all the sources in each of them (every line of the layer's peak families the ray excites there with at least the requested strength, and the scattered beam), of strength of the source x emission of the line per photon of the source x mass fraction / (2 sin) x de Boer's integral for the two layers; sources below the threshold, or in other layers reached by less than 1e-4 of the beam, contribute nothing. The part reported under the name of a source and its layer is what that source contributes. Nothing is reported when secondary excitation is not asked for.", "quantifier": "all libraries with sound caches, configurations, beams, requests, options, layers, lines and source names", "why_tests_cant": "The value is accumulated by five nested loops with caches of coefficients, thresholds and early exits; the sum must be right for every number of rays, layers, elements and lines.", "anchors": ["src/fisx_multilayer.cpp: XRF::getMultilayerFluorescence", "src/fisx_math.cpp: Math::deBoerL0", "src/fisx_math.cpp: Math::deBoerX", "src/fisx_elements.cpp: Elements::getPeakFamilies"]}
{"id": "C85", "title": "Tertiary excitation follows from the primary and secondary excitation returned", "statement": "When getMultilayerFluorescence is asked for tertiary excitation (secondary > 1), the tertiary value of a line is 0 if the secondary excitation adds less than 1 % to the primary one; otherwise it is the sum, over the sources listed for the line, of their contribution times the relative excess of the source over its own primary excitation. Sources that are not returned, that are returned for a layer with less than 0.5 % of their element, or that have themselves less than 1 % of secondary excitation count nothing. The factor of a source does not depend on which of several requests produced it, the mass fraction returned is that of the element in the layer, and asking for the tertiary excitation changes no other value than the rate, which grows in proportion to the total excitation. Without the request the value is 0.", "quantifier": "every configuration, library, beam, list of requests and options for which the call returns, every line of the result", "why_tests_cant": "the value of a line depends on all the other lines of the result, on the break in the loop over the lines of a weak element and on overwriting of a factor by other requests of the same line", "anchors": ["src/fisx_multilayer.cpp:1095-1208", "XRF::getMultilayerFluorescence"]}
{"id": "C86", "title": "Material defaults of a layer", "statement": "When no density (thickness) was given for a layer that has a material, the default density (thickness) of the material is used.", "quantifier": "every sequence of constructor, setMaterial, setDensity, setThickness calls", "why_tests_cant": "The claim ranges over every finite sequence of API calls (including failing ones); tests exercise a few fixed call sequences.", "anchors": ["src/fisx_layer.cpp:Layer::setMaterial", "src/fisx_layer.cpp:Layer::setDensity", "src/fisx_layer.cpp:Layer::setThickness"]}
{"id": "C87", "title": "The escape cache does not depend on the evaluation order", "statement": "The transparency of the escape cache of a detector does not depend on the order in which the compiler evaluates the two sides of the assignment to the cache (left open before C++17, the standard of the build flags is older).", "quantifier": "every sequence of detector setters and getEscape calls", "why_tests_cant": "The claim ranges over every finite sequence of API calls (including failing ones); tests exercise a few fixed call sequences.", "anchors": ["src/fisx_detector.cpp:Detector::getEscape", "src/fisx_detector.cpp:Detector::setMinimumEscapePeakIntensity"]}
{"id": "C88", "title": "A rejected addMaterial by name does not damage the library", "statement": "If addMaterial(name, density, thickness, comment, replace) throws, the set of defined materials is the one before the call.", "quantifier": "every library state, every name, density, thickness and replace flag", "why_tests_cant": "The claim ranges over every finite sequence of API calls (including failing ones); tests exercise a few fixed call sequences.", "anchors": ["src/fisx_elements.cpp:Elements::addMaterial"]}
{"id": "C89", "title": "Formulas without a positive number of atoms", "statement": "getCompositionFromFormula never returns a negative or undefined mass fraction: formulas with a negative or zero number of atoms are rejected.", "quantifier": "every parse result and every table of atomic masses", "why_tests_cant": "The claim ranges over an infinite set of inputs; a unit test samples a handful of literals and cannot exclude the remaining ones.", "anchors": ["src/fisx_elements.cpp:Elements::getCompositionFromFormula"]}
{"id": "C90", "title": "Unknown names with supplied materials", "statement": "getComposition with materials supplied in the call gives an empty result for an unknown name, as the call without them does.", "quantifier": "every library of materials, nested to any depth", "why_tests_cant": "The claim ranges over an infinite set of inputs; a unit test samples a handful of literals and cannot exclude the remaining ones.", "anchors": ["src/fisx_elements.cpp:Elements::getComposition"]}
{"id": "C91", "title": "Escape peaks respect the requested number and separation", "statement": "At most nThreshold escape peaks are returned and lines closer than the energy threshold are merged.", "quantifier": "every detector composition, energy and thresholds", "why_tests_cant": "The claim ranges over an infinite set of inputs; a unit test samples a handful of literals and cannot exclude the remaining ones.", "anchors": ["src/fisx_elements.cpp:Elements::getEscape"]}
{"id": "C92", "title": "Comments of an ini file are ignored", "statement": "Comment lines and comments at the end of a line do not change what is read from an ini file.", "quantifier": "every well formed ini text with any number of sections and keys", "why_tests_cant": "The claim ranges over an infinite set of inputs; a unit test samples a handful of literals and cannot exclude the remaining ones.", "anchors": ["src/fisx_simpleini.cpp:SimpleIni::readFileName", "src/fisx_simpleini.cpp:SimpleIni::readSection", "src/fisx_simpleini.cpp:SimpleIni::getSections"]}
{"id": "C93", "title": "Subsections are found, case-sensitive", "statement": "getSubSections(parent) with case sensitivity returns exactly the sections whose name starts with parent followed by a dot.", "quantifier": "every set of section names and every parent", "why_tests_cant": "The claim ranges over an infinite set of inputs; a unit test samples a handful of literals and cannot exclude the remaining ones.", "anchors": ["src/fisx_simpleini.cpp:SimpleIni::getSubsections"]}
{"id": "C94", "title": "Data of a specfile scan", "statement": "getScanData of scan i returns exactly the numeric rows between its header and the next scan.", "quantifier": "every specfile text", "why_tests_cant": "The claim ranges over an infinite set of inputs; a unit test samples a handful of literals and cannot exclude the remaining ones.", "anchors": ["src/fisx_simplespecfile.cpp:SimpleSpecfile::setFileName", "src/fisx_simplespecfile.cpp:SimpleSpecfile::getScanData"]}
{"id": "C95", "title": "Geometric efficiency is at most one half", "statement": "XRF::getGeometricEfficiency is at most 1/2 for a detector with a diameter.", "quantifier": "every detector diameter, distance, layer stack and layer index", "why_tests_cant": "The claim ranges over an infinite set of inputs; a unit test samples a handful of literals and cannot exclude the remaining ones.", "anchors": ["src/fisx_xrf.cpp:XRF::getGeometricEfficiency"]}
{"id": "C96", "title": "Exponential integrals at 1", "statement": "Math::E1(1) and Math::En(n,1) return a value.", "quantifier": "every order and every positive argument", "why_tests_cant": "The claim ranges over an infinite set of inputs; a unit test samples a handful of literals and cannot exclude the remaining ones.", "anchors": ["src/fisx_math.cpp:Math::E1", "src/fisx_math.cpp:Math::En", "src/fisx_math.cpp:Math::_deBoerD"]}
{"id": "C97", "title": "erf at 0", "statement": "Math::erf(0) = 0.", "quantifier": "every real argument", "why_tests_cant": "The claim ranges over an infinite set of inputs; a unit test samples a handful of literals and cannot exclude the remaining ones.", "anchors": ["src/fisx_math.cpp:Math::erf", "src/fisx_math.cpp:Math::erfc"]}
{"id": "C98", "title": "Emitted line energies are positive", "statement": "The energy of every transition the element offers is positive.", "quantifier": "every set of binding energies and every transition label", "why_tests_cant": "The claim ranges over an infinite set of inputs; a unit test samples a handful of literals and cannot exclude the remaining ones.", "anchors": ["src/fisx_element.cpp:Element::getTransitionEnergy", "src/fisx_element.cpp:Element::getEmittedXRayLines"]}
{"id": "C99", "title": "Several requests are answered as single ones", "statement": "A call with several requests gives the union of the answers to the single requests.", "quantifier": "every list of request strings", "why_tests_cant": "The claim ranges over an infinite set of inputs; a unit test samples a handful of literals and cannot exclude the remaining ones.", "anchors": ["src/fisx_xrf.cpp:XRF::getMultilayerFluorescence"]}
{"id": "C100", "title": "Malformed requests give no result", "statement": "A request string that is not an element, a family and optionally a layer, separated by single blanks, gives no result: getMultilayerFluorescence fails.", "quantifier": "every list of request strings, configuration and library, for beams with rays", "why_tests_cant": "The malformed strings pass the parser; that every one of them is stopped later, in every configuration, is a statement about all strings and all configurations.", "anchors": ["src/fisx_xrf.cpp:XRF::getMultilayerFluorescence", "src/fisx_multilayer.cpp:XRF::getMultilayerFluorescence"]}
{"id": "C101", "title": "Layers of a configuration file come in the order of the file", "statement": "The layers of the sample, the filters and the attenuators are ordered as in the file, and a file without the section [attenuators] has none.", "quantifier": "every configuration file with any number of entries and every previous configuration", "why_tests_cant": "The claim ranges over all files; a unit test reads a few.", "anchors": ["src/fisx_xrfconfig.cpp:XRFConfig::readConfigurationFromFile"]}
{"id": "C102", "title": "Edges extracted from a table are its jumps near binding energies", "statement": "extractEdgeEnergiesFromMassAttenuationCoefficients reports for a shell the energy x and the index i exactly when x is repeated at i with a larger photoelectric coefficient (i the last such index), the number of different such energies above x is the position of the shell in K, L1, ..., M5, the shell is bound and x is less than 100 eV from its binding energy. It throws runtime_error for empty vectors, vectors of different lengths and elements without binding energies, and changes no data of the element.", "quantifier": "every element, every pair of vectors of any length", "why_tests_cant": "The claim ranges over all tables, elements and libraries; a unit test tries a few.", "anchors": ["src/fisx_element.cpp:Element::extractEdgeEnergiesFromMassAttenuationCoefficients"]}
{"id": "C103", "title": "Every edge of a table is found", "statement": "Every energy of a table repeated with a larger photoelectric coefficient less than 100 eV from the binding energy of a bound shell is reported as the edge of this shell.", "quantifier": "every element, every table", "why_tests_cant": "The claim ranges over all tables, elements and libraries; a unit test tries a few.", "anchors": ["src/fisx_element.cpp:Element::extractEdgeEnergiesFromMassAttenuationCoefficients"]}
{"id": "C104", "title": "Installed coefficients are the supplied ones", "statement": "After setMassAttenuationCoefficients returns, the table of the element consists of energies of EPDL97 below the first supplied one with the values of EPDL97, and one point per supplied energy with the supplied coefficients, at the supplied energy or, just above an edge that is too low, at the binding energy; a query at the energy of a supplied point returns the supplied coherent, Compton and pair coefficients.", "quantifier": "every element, EPDL97 table and supplied table for which the call returns", "why_tests_cant": "The claim ranges over all tables, elements and libraries; a unit test tries a few.", "anchors": ["src/fisx_elements.cpp:Elements::setMassAttenuationCoefficients", "src/fisx_element.cpp:Element::setMassAttenuationCoefficients"]}
{"id": "C105", "title": "Photoelectric coefficients are consistent with the supplied ones", "statement": "After setMassAttenuationCoefficients returns, a query at the energy of a supplied point returns the supplied photoelectric coefficient (as the sum of the partial ones, rescaled).", "quantifier": "every element, EPDL97 table and supplied table for which the call returns", "why_tests_cant": "The claim ranges over all tables, elements and libraries; a unit test tries a few.", "anchors": ["src/fisx_elements.cpp:Elements::setMassAttenuationCoefficients", "src/fisx_elements.h:Elements::setMassAttenuationCoefficients"]}
{"id": "C106", "title": "A refused table changes nothing", "statement": "When setMassAttenuationCoefficients throws, the coefficients of the element are those it had before.", "quantifier": "every element, library and supplied table", "why_tests_cant": "The claim ranges over all tables, elements and libraries; a unit test tries a few.", "anchors": ["src/fisx_elements.cpp:Elements::setMassAttenuationCoefficients"]}
{"id": "C107", "title": "Installing a table never accesses memory out of bounds", "statement": "setMassAttenuationCoefficients returns or throws for all vectors.", "quantifier": "every element, library and five vectors of any lengths", "why_tests_cant": "The claim ranges over all tables, elements and libraries; a unit test tries a few.", "anchors": ["src/fisx_elements.cpp:Elements::setMassAttenuationCoefficients"]}
{"id": "C108", "title": "Installing a table concerns one element", "statement": "Elements::setMassAttenuationCoefficients throws invalid_argument for an unknown name, changing nothing; otherwise only the data of the named element change, not its name and mass, the other elements, the materials nor the cached escape ratios.", "quantifier": "every library, name and table, whether the call returns or throws", "why_tests_cant": "The claim ranges over all tables, elements and libraries; a unit test tries a few.", "anchors": ["src/fisx_elements.cpp:Elements::setMassAttenuationCoefficients"]}
{"id": "C109", "title": "A file of coefficients is applied scan by scan", "statement": "setMassAttenuationCoefficientsFile throws ios_base::failure for a file without scans, changing nothing; after it returns, element k has the table of scan k, the columns being those whose label, in capitals, mentions ENERGY, PHOTO, PAIR, COMPTON, RAYLEIGH or COHERENT (not INCOHERENT), the last one if there are several; all other elements, names, materials are unchanged.", "quantifier": "every file, every library", "why_tests_cant": "The claim ranges over all tables, elements and libraries; a unit test tries a few.", "anchors": ["src/fisx_elements.cpp:Elements::setMassAttenuationCoefficientsFile"]}
{"id": "C110", "title": "A file of coefficients never makes the library access memory out of bounds", "statement": "setMassAttenuationCoefficientsFile returns or throws for all files.", "quantifier": "every file, every library", "why_tests_cant": "The claim ranges over all tables, elements and libraries; a unit test tries a few.", "anchors": ["src/fisx_elements.cpp:Elements::setMassAttenuationCoefficientsFile"]}
{"id": "C111", "title": "EPDL97 binding energies are those of the file", "statement": "After the data directory has been loaded, getBindingEnergies(z) returns the values of row z of the file (the last row for larger numbers): the energy of a shell is in the last column whose label names it (K..., the first three characters before a parenthesis, else the first two); the first column is not used; no other shells are reported.", "quantifier": "every pair of files that load, every z >= 1", "why_tests_cant": "The claim ranges over all files and elements; a unit test tries a few.", "anchors": ["src/fisx_epdl97.cpp:EPDL97::loadBindingEnergies", "src/fisx_epdl97.cpp:EPDL97::getBindingEnergies"]}
{"id": "C112", "title": "The EPDL97 table of an element is the one of the file", "statement": "After the data directory has been loaded, the table returned for element z has one point per row of scan z; its energies and its coherent, Compton and K to M5 coefficients are the values of the file in the first column whose label names the quantity; the one of the outer shells is recalculated (total - Compton - coherent - inner shells, not below zero) for z > 18 and zero otherwise.", "quantifier": "every pair of files that load, every element with a scan, every row", "why_tests_cant": "The claim ranges over all files and elements; a unit test tries a few.", "anchors": ["src/fisx_epdl97.cpp:EPDL97::loadCrossSections", "src/fisx_epdl97.cpp:EPDL97::getMassAttenuationCoefficients"]}
{"id": "C113", "title": "The totals returned by EPDL97 are those of the file", "statement": "After the data directory has been loaded, the total coefficient returned for an element at an energy of its scan is the total of the file and the photoelectric one is that total minus the scattering ones.", "quantifier": "every pair of files that load, every element with a scan, every row", "why_tests_cant": "The claim ranges over all files and elements; a unit test tries a few.", "anchors": ["src/fisx_epdl97.cpp:EPDL97::loadCrossSections", "src/fisx_epdl97.cpp:EPDL97::getMassAttenuationCoefficients"]}
{"id": "C114", "title": "No mass attenuation coefficient is negative", "statement": "When no tabulated coefficient is negative and no composition has a negative fraction, no coefficient (coherent, compton, pair, photoelectric, total) returned for an element, a mixture or a name is negative, inside or outside the tabulated energies and with or without cache.", "quantifier": "every element, library, mixture, name and energy", "why_tests_cant": "The claim ranges over all configurations, libraries and energies; a unit test tries a few.", "anchors": ["src/fisx_element.cpp:Element::getMassAttenuationCoefficients", "src/fisx_elements.cpp:Elements::getMassAttenuationCoefficients"]}
{"id": "C115", "title": "Efficiencies are between 0 and 1 and primary fluorescence is not negative", "statement": "With sensible input (no negative coefficient or fraction, covered fractions of the surface and user tables between 0 and 1, positive sines of the angles), the part of the beam that passes the filters and the efficiency returned with each line are between 0 and 1, and the primary fluorescence returned is not negative.", "quantifier": "every library, configuration, beam, list of requests and line returned", "why_tests_cant": "The claim ranges over all configurations, libraries and energies; a unit test tries a few.", "anchors": ["src/fisx_multilayer.cpp:XRF::getMultilayerFluorescence", "src/fisx_layer.cpp:Layer::getTransmission", "src/fisx_xrf.cpp:XRF::getGeometricEfficiency"]}
{"id": "C116", "title": "All overloads of getMultilayerFluorescence make the same calculation", "statement": "The overload with three vectors treats position k as a request for element k, family k and layer k (or the only layer when a single one is given); the one for a single element and the one with strings give the same result as those requests; the single one refuses an empty family and a negative layer. A beam given with the call replaces the one of the configuration exactly when it has rays.", "quantifier": "every configuration, library, beam and list of requests", "why_tests_cant": "The claim ranges over all configurations, libraries and energies; a unit test tries a few.", "anchors": ["src/fisx_multilayer.cpp:XRF::getMultilayerFluorescence", "src/fisx_xrf.cpp:XRF::getMultilayerFluorescence"]}
{"id": "C117", "title": "Layers are resolved with the materials of the configuration first", "statement": "In the calculation, a layer with its own material is made of the components of that material in proportion to their amounts, and a layer given by the name of a material of the configuration is made of that material, whatever the library knows under that name; in both cases components are looked up in the configuration first.", "quantifier": "every configuration, library history and layer", "why_tests_cant": "The claim ranges over all configurations, libraries and energies; a unit test tries a few.", "anchors": ["src/fisx_xrf.cpp:XRF::getLayerComposition", "src/fisx_elements.cpp:Elements::getComposition"]}
{"id": "C118", "title": "Vectors of different lengths are not read past their end", "statement": "When the vectors of elements, families and layers do not have matching lengths, getMultilayerFluorescence reports it instead of reading past the end of a vector.", "quantifier": "every three vectors", "why_tests_cant": "The claim ranges over all configurations, libraries and energies; a unit test tries a few.", "anchors": ["src/fisx_multilayer.cpp:XRF::getMultilayerFluorescence"]}
{"id": "C119", "title": "A new library has the elements of the periodic table", "statement": "Whatever the data files contain, a library whose construction succeeds has exactly the 109 predefined elements, in order; the n-th one has atomic number n and the long name, row, column, mass and density (g/cm3, 1 when the table has none) of its entry; other names are refused and there are no materials.", "quantifier": "every directory, content of the files and element", "why_tests_cant": "The claim ranges over all contents of the data files, directories and elements; a unit test tries the files of one installation.", "anchors": ["src/fisx_elements.cpp:Elements::Elements", "src/fisx_elements.cpp:Elements::initialize"]}
{"id": "C120", "title": "Setting binding energies replaces the shells of an element", "statement": "After setBindingEnergies the binding energies are those given, the element has exactly one new shell for each given name of the series K, L and M, and nothing else changed; the call succeeds exactly when each of those names is the name of a shell.", "quantifier": "every element and map of binding energies", "why_tests_cant": "The claim ranges over all contents of the data files, directories and elements; a unit test tries the files of one installation.", "anchors": ["src/fisx_element.cpp:Element::setBindingEnergies"]}
{"id": "C121", "title": "Binding energies of a new library come from the file", "statement": "The binding energies of the n-th element are those of row n of EADL97_BindingEnergies.dat (its last row when it is shorter), 0 for shells without column; with another file of binding energies its rows take precedence column by column.", "quantifier": "every directory, content of the files and element", "why_tests_cant": "The claim ranges over all contents of the data files, directories and elements; a unit test tries the files of one installation.", "anchors": ["src/fisx_elements.cpp:Elements::Elements", "src/fisx_elements.cpp:Elements::initialize", "src/fisx_epdl97.cpp:EPDL97::loadBindingEnergies"]}
{"id": "C122", "title": "Attenuation coefficients of a new library come from EPDL97", "statement": "The n-th element has a point for each row of scan n of EPDL97_CrossSections.dat (the last scan for the elements without one) with its energy, coherent and Compton coefficients, no pair production, the photoelectric coefficient equal to the sum over the shells of the row plus the recalculated outer part, and the total equal to the sum.", "quantifier": "every directory, content of the files and element", "why_tests_cant": "The claim ranges over all contents of the data files, directories and elements; a unit test tries the files of one installation.", "anchors": ["src/fisx_elements.cpp:Elements::Elements", "src/fisx_elements.cpp:Elements::initialize", "src/fisx_epdl97.cpp:EPDL97::loadCrossSections"]}
{"id": "C123", "title": "Shell data of a new library come from the EADL97 files", "statement": "Yields, radiative and nonradiative transition rates of each K, L and M subshell of the n-th element are those of row n of the scan of the subshell in the file of the main shell; transitions only when the subshell has a positive binding energy; yields that have no column or row are 0.", "quantifier": "every directory, content of the files, element and subshell", "why_tests_cant": "The claim ranges over all contents of the data files, directories and elements; a unit test tries the files of one installation.", "anchors": ["src/fisx_elements.cpp:Elements::Elements", "src/fisx_elements.cpp:Elements::initialize", "src/fisx_elements.cpp:Elements::setShellConstantsFile", "src/fisx_elements.cpp:Elements::setShellRadiativeTransitionsFile", "src/fisx_elements.cpp:Elements::setShellNonradiativeTransitionsFile"]}
{"id": "C124", "title": "A library is not constructed from incomplete data", "statement": "The construction succeeds only when the directory has a name and every file needed exists with the number of scans needed (1 for binding energies, at least 99 for cross sections, one per subshell for yields and rates); an empty directory name means the installed data with one argument and is refused otherwise.", "quantifier": "every file system, directory and arguments", "why_tests_cant": "The claim ranges over all contents of the data files, directories and elements; a unit test tries the files of one installation.", "anchors": ["src/fisx_elements.cpp:Elements::Elements", "src/fisx_elements.cpp:Elements::initialize"]}
{"id": "C125", "title": "With the PyMca data the files of PyMca take precedence", "statement": "The library constructed with the PyMca flag has the elements, binding energies and nonradiative rates of the library of the directory with BindingEnergies.dat; yields come from xShellConstants.dat, falling back name by name to EADL97; radiative rates come from xShellRates.dat; attenuation coefficients from XCOM_CrossSections.dat for the elements with a scan and from EPDL97 for the others.", "quantifier": "every directory, content of the files, element and subshell", "why_tests_cant": "The claim ranges over all contents of the data files, directories and elements; a unit test tries the files of one installation.", "anchors": ["src/fisx_elements.cpp:Elements::Elements", "src/fisx_elements.cpp:Elements::initialize"]}
{"id": "C126", "title": "The maps an element hands out can be read and show the subshell", "statement": "Each getter of an element that returns a map by reference (radiative and nonradiative transitions, fluorescence, Auger and Coster-Kronig ratios, X-ray lines) gives, for a subshell the element has, a reference that stays readable and shows the present data of the subshell after any later calls on the element; for any other subshell it refuses.", "quantifier": "every element, subshell, getter and history of later calls", "why_tests_cant": "Reading a dead reference is undefined behaviour: a test can see the right values by luck; the claim ranges over all histories.", "anchors": ["src/fisx_element.cpp:Element::getAugerRatios", "src/fisx_element.cpp:Element::getCosterKronigRatios", "src/fisx_element.cpp:Element::getRadiativeTransitions", "src/fisx_element.cpp:Element::getFluorescenceRatios", "src/fisx_element.cpp:Element::setBindingEnergies"]}
{"id": "C127", "title": "The library made from sensible data files is sound", "statement": "A library built by any of the three constructors, from data whose binding energies are not negative and whose line labels start with their subshell and have no blank, meets all assumptions under which the fluorescence of samples is characterised (no stale caches, unambiguous line names, no name mistaken for an escape peak).", "quantifier": "every file system, directory, flag and content of the files", "why_tests_cant": "The claim ranges over all contents of the data files.", "anchors": ["src/fisx_elements.cpp:Elements::Elements", "src/fisx_elements.cpp:Elements::initialize", "src/fisx_shell.cpp:Shell::setRadiativeTransitions"]}
{"id": "C128", "title": "Using the caches never changes results", "statement": "For elements with the nine subshells K to M5 and sensible data, any history of calls on the caches (enabling, filling, updating, emptying the cascade cache, the calculation cache and the escape cache, failing calls included) leaves every answer as it was: coefficients, vacancies, excitation factors, lines, compositions, peak families, escape peaks and the multilayer fluorescence of any sample.", "quantifier": "every library, history of cache calls, configuration, beam and request", "why_tests_cant": "The claim ranges over all interleavings of cache operations and queries; a test tries a few.", "anchors": ["src/fisx_element.cpp:Element::setCascadeCacheEnabled", "src/fisx_element.cpp:Element::fillCascadeCache", "src/fisx_element.cpp:Element::fillCache", "src/fisx_element.cpp:Element::updateCache", "src/fisx_elements.cpp:Elements::updateEscapeCache", "src/fisx_multilayer.cpp:XRF::getMultilayerFluorescence"]}
{"id": "C129", "title": "Filling the caches of an element does not depend on the order of evaluation", "statement": "Filling or updating the calculation cache of an element leaves the same caches, and the same later answers, whether the compiler evaluates the left or the right side of an assignment first (unspecified before C++17).", "quantifier": "every element and list of energies", "why_tests_cant": "A test runs with one compiler.", "anchors": ["src/fisx_element.cpp:Element::fillCache", "src/fisx_element.cpp:Element::updateCache"]}
{"id": "C130", "title": "Debug and release builds agree on deBoerD", "statement": "Math::deBoerD returns the same in a build with NDEBUG and in one without it (whose consistency check would replace the value): for every positive argument the value lies between the limits of Abramowitz and Stegun 5.1.20.", "quantifier": "every real argument", "why_tests_cant": "The check guards all positive numbers; a test samples a few.", "anchors": ["src/fisx_math.cpp:Math::deBoerD", "src/fisx_math.cpp:Math::_deBoerD", "src/fisx_math.cpp:Math::AS_5_1_53"]}
{"id": "C131", "title": "Accuracy of the exponential integral", "statement": "For every positive argument other than 1, Math::E1 returns the integral of exp(-t)/t from the argument to infinity, and for every positive argument Math::deBoerD returns exp(x) times it, with a relative error below 1.2e-6; the continued fraction with default arguments always converges.", "quantifier": "every positive argument", "why_tests_cant": "Accuracy over an infinite range; tests compare a few values.", "anchors": ["src/fisx_math.cpp:Math::E1", "src/fisx_math.cpp:Math::deBoerD", "src/fisx_math.cpp:Math::_deBoerD", "src/fisx_math.cpp:Math::AS_5_1_53"]}
{"id": "C132", "title": "Accuracy of the exponential integrals of higher order", "statement": "Math::En(n, x) returns the exponential integral of order n with a small relative error.", "quantifier": "every order and every positive argument", "why_tests_cant": "The error grows with the order and the argument; tests use small orders.", "anchors": ["src/fisx_math.cpp:Math::En"]}
{"id": "C133", "title": "The exponential integral at negative arguments", "statement": "For a < b < 0 the difference Math::E1(a) - Math::E1(b) is the integral of exp(-t)/t between a and b, up to rounding.", "quantifier": "every pair of negative arguments", "why_tests_cant": "Accuracy over an infinite range; tests compare a few values.", "anchors": ["src/fisx_math.cpp:Math::E1"]}
{"id": "C134", "title": "The rational approximation AS_5_1_56", "statement": "Math::AS_5_1_56 throws below 1 and otherwise returns x exp(x) E1(x).", "quantifier": "every argument", "why_tests_cant": "Accuracy over an infinite range; tests compare a few values.", "anchors": ["src/fisx_math.cpp:Math::AS_5_1_56"]}
{"id": "C135", "title": "deBoerL0 is the enhancement integral of a layer", "statement": "Math::deBoerL0(mu1, mu2, muj, density, thickness) returns the double integral over depths x < y of the layer of exp(-mu2 x - mu1 y) E1(muj (y - x)), or an error.", "quantifier": "every set of positive coefficients and thickness in the range of the general formula", "why_tests_cant": "The claim ranges over five continuous parameters.", "anchors": ["src/fisx_math.cpp:Math::deBoerL0", "src/fisx_math.cpp:Math::deBoerD"]}
{"id": "C136", "title": "Thick and thin targets in deBoerL0", "statement": "The approximations of Math::deBoerL0 for thick and thin targets are close to the integral of the layer.", "quantifier": "every set of coefficients and thickness in the range of the approximations", "why_tests_cant": "The claim ranges over five continuous parameters.", "anchors": ["src/fisx_math.cpp:Math::deBoerL0"]}
{"id": "C137", "title": "deBoerX is the enhancement integral between two layers", "statement": "Math::deBoerX(p, q, d1, d2, mu1j, mu2j, mubjdt) returns the double integral over 0 < x < d1 and 0 < y < d2 of exp(q x - p y) E1(mu1j x + mubjdt + mu2j y), up to a small error, also when the layers touch (mubjdt = 0, where the integrand is singular) and for negative p and q.", "quantifier": "every set of coefficients and thicknesses for which the formula has no zero denominator", "why_tests_cant": "The claim ranges over seven continuous parameters.", "anchors": ["src/fisx_math.cpp:Math::deBoerX", "src/fisx_math.cpp:Math::deBoerV", "src/fisx_math.cpp:Math::deBoerD"]}
{"id": "C138", "title": "Attributes of an element", "statement": "The name, long name, density, column, row, atomic number and atomic mass returned by the getters of Element are the arguments of the last accepted call of the corresponding setter, or the value given by the constructor; atomic numbers below 1 and negative masses are rejected with invalid_argument and change nothing; every attribute can be read at any time.", "quantifier": "every history of setter and calculation calls after either constructor", "why_tests_cant": "The claim ranges over histories of calls; an attribute nobody set is only noticed when the memory happens to hold a strange value.", "anchors": ["src/fisx_element.cpp:Element::Element", "src/fisx_element.cpp:Element::setAtomicNumber", "src/fisx_element.cpp:Element::setAtomicMass", "src/fisx_element.cpp:Element::getAtomicMass", "src/fisx_element.cpp:Element::setName", "src/fisx_element.cpp:Element::setLongName", "src/fisx_element.cpp:Element::setDensity", "src/fisx_element.cpp:Element::setColumn", "src/fisx_element.cpp:Element::setRow"]}
{"id": "C139", "title": "Overloads of the transition setters agree and the order of transitions does not matter", "statement": "Shell::setRadiativeTransitions and Shell::setNonradiativeTransitions give the same outcome and the same shell whichever overload (vectors, map, C strings) receives the transitions, and in whatever order, provided no two labels denote the same transition.", "quantifier": "every shell, every list of transitions, every permutation", "why_tests_cant": "The claim ranges over all permutations of all lists and all previous states of the shell.", "anchors": ["src/fisx_shell.cpp:Shell::setRadiativeTransitions", "src/fisx_shell.cpp:Shell::setNonradiativeTransitions"]}
{"id": "C140", "title": "Accuracy of erf and erfc", "statement": "Math::erf and Math::erfc return the Gaussian integrals 2/sqrt(pi) int_0^x exp(-u^2) du and 2/sqrt(pi) int_x^inf exp(-u^2) du with the accuracy published for the approximation they use: a relative error of erfc of at most 1.2e-7 for every argument that is not negative, and the corresponding absolute error for the others.", "quantifier": "every real argument", "why_tests_cant": "The claim ranges over all arguments; a table with six digits does not show the error.", "anchors": ["src/fisx_math.cpp:Math::erf", "src/fisx_math.cpp:Math::erfc"]}
{"id": "C141", "title": "Secondary fluorescence is the enhancement integral", "statement": "The secondary excitation returned by getMultilayerFluorescence (C84) is, apart from the stated small error, the integral over the depth of the source and the depth of the excited atom of Beer-Lambert attenuation of the beam on its way to the source, of the radiation of the source (emitted in all directions) on its way to the excited atom and of the line on its way out, within a layer and from a layer to another one above or below. It is not negative.", "quantifier": "every sample (number, composition, order and thickness of layers), geometry, beam, source and line", "why_tests_cant": "The integral has no elementary closed form, and its approximation switches between formulas by thickness and coefficient; tests compare a few cases.", "anchors": ["src/fisx_multilayer.cpp:XRF::getMultilayerFluorescence", "src/fisx_math.cpp:Math::deBoerL0", "src/fisx_math.cpp:Math::deBoerX"]}
{"id": "C142", "title": "Rates of the emitted lines", "statement": "getXRayLinesFromVacancyDistribution returns exactly the lines whose relative intensity times vacancies of the shell (after the cascade when requested) times fluorescence yield (unless it is not to be used) is positive, with that product as rate: every returned rate is positive and the lines of a shell do not add up to more than its vacancies. getPhotoelectricExcitationFactors multiplies these rates for the vacancies of a photoelectric event by the weight, and by the photoelectric coefficient.", "quantifier": "every element, vacancy distribution, choice of cascade and yield, energy and weight", "why_tests_cant": "Ranges over all shell data and distributions; lines overwrite each other in a map, which tests with one shell do not see.", "anchors": ["src/fisx_element.cpp:Element::getXRayLinesFromVacancyDistribution", "src/fisx_element.cpp:Element::getPhotoelectricExcitationFactors", "src/fisx_element.cpp:Element::getCascadeModifiedVacancyDistribution"]}
{"id": "C143", "title": "Sensible data do not create vacancies or photons without bound", "statement": "Whatever the history of calls that made an element, or the files a library was made from: when the yields, rates and relative intensities that can be read back are not negative, add up to at most one (yields, intensities) and TOTAL is not below the sum of the rates, and the lines carry the name of their shell, then the cascade takes away no vacancy and turns one into at most 2^9 - 1, the emitted lines have positive rates and there are no more photons than vacancies, and no more than 511 photons per absorbed photon.", "quantifier": "every history of calls, every set of data files, every vacancy distribution and energy", "why_tests_cant": "Bounds over all histories and all data; the cascade compounds over nine shells and tests use one set of data.", "anchors": ["src/fisx_element.cpp:Element::getCascadeModifiedVacancyDistribution", "src/fisx_element.cpp:Element::getXRayLinesFromVacancyDistribution", "src/fisx_element.cpp:Element::getPhotoelectricExcitationFactors", "src/fisx_shell.cpp:Shell::getDirectVacancyTransferRatios"]}
{"id": "C144", "title": "From Python, a call that fails raises an exception", "statement": "A method of the Python classes whose C++ call throws raises a Python exception; it does not end the process.", "quantifier": "every layer, library, table, energy and argument", "why_tests_cant": "A test that ends its own process cannot assert; and every combination of wrapper and failing input matters.", "anchors": ["python/cython/Layer.pxd", "python/cython/EPDL97.pxd", "python/cython/PyLayer.pyx:PyLayer.getTransmission", "python/cython/PyLayer.pyx:PyLayer.getComposition", "python/cython/PyEPDL97.pyx:PyEPDL97.getBindingEnergies"]}
{"id": "C145", "title": "From Python, getFluorescence does not read past the end of a vector", "statement": "Whatever sequences of elements, layers and families are given to PyXRF.getFluorescence, the call raises an exception or makes each request from the items of the same position, without reading past the end of a vector.", "quantifier": "every combination of names, families and layer numbers, of any length, given as text or as lists", "why_tests_cant": "Reading past the end of a vector is not observable in general; all lengths matter.", "anchors": ["python/cython/PyXRF.pyx:PyXRF.getFluorescence"]}
{"id": "C146", "title": "From Python, a single element or family given as text means that element or family", "statement": "PyXRF.getFluorescence(\"Cr\", 0, \"K\") is the call for the element Cr and family K.", "quantifier": "every element name, family, layer and configuration", "why_tests_cant": "The behaviour depends on the number of characters of both texts.", "anchors": ["python/cython/PyXRF.pyx:PyXRF.getFluorescence"]}
{"id": "C147", "title": "PyBeam.setBeam and PyXRF.setBeam set the same beam", "statement": "The same energies and weights, as numbers or as lists, with or without weights, give the same beam of rays through either class; without weights all rays weigh the same and add up to one.", "quantifier": "every energy or list of energies, every weight or list of weights, every earlier state", "why_tests_cant": "All lengths, signs and combinations of scalar and list arguments.", "anchors": ["python/cython/PyXRF.pyx:PyXRF.setBeam", "python/cython/PyBeam.pyx:PyBeam.setBeam"]}
{"id": "C148", "title": "PyXRF.setGeometry", "statement": "The angles are the given ones; the scattering angle is the given one, or their sum when it is left out or negative; nothing else of the configuration changes.", "quantifier": "every configuration and all angles", "why_tests_cant": "All angles, signs and states.", "anchors": ["python/cython/PyXRF.pyx:PyXRF.setGeometry", "src/fisx_xrf.cpp:XRF::setGeometry"]}
{"id": "C149", "title": "User transmission tables can be given as instances or as arguments", "statement": "PyXRF.setUserBeamFilters and setUserAttenuators accept a list of transmission tables, given as instances or as the arguments of setTransmissionTable, and the configuration then has these tables in this order; if one is refused the configuration is as it was.", "quantifier": "every list of tables and every configuration", "why_tests_cant": "All lists and contents; the exception path depends on the first refused item.", "anchors": ["python/cython/PyXRF.pyx:PyXRF.setUserBeamFilters", "python/cython/PyXRF.pyx:PyXRF._fillUserBeamFilters", "python/cython/PyTransmissionTable.pyx"]}
{"id": "C150", "title": "From Python, getExcitationFactors of a list of energies gives the factors of each of them", "statement": "PyElements.getExcitationFactors returns one set of factors per energy given.", "quantifier": "every library, element, list of energies and weights", "why_tests_cant": "All lists; a test with one energy cannot tell.", "anchors": ["python/cython/PyElements.pyx:PyElements.getExcitationFactors"]}
{"id": "C151", "title": "From Python, names can be given as str and come back as str", "statement": "Every documented call with names accepts them as str and gives the answer of C++ with names as str.", "quantifier": "every name, composition, layer and library", "why_tests_cant": "All names and calls; the refused ones fail for every input.", "anchors": ["python/cython/PyElements.pyx:PyElements.getRow", "python/cython/PyElements.pyx:PyElements.getMassAttenuationCoefficients", "python/cython/PyXRF.pyx:PyXRF.getLayerPeakFamilies", "python/cython/PyLayer.pyx:PyLayer.getPeakFamilies", "python/fisx/FisxCythonTools.py"]}
{"id": "C152", "title": "initializeAsPyMca", "statement": "After PyElements.initializeAsPyMca the object has the library of Elements(directory, pymca=1), whatever it was before; when the call raises an exception the object can still be used.", "quantifier": "every content of the data files, every state of the object", "why_tests_cant": "All file contents and failures at every file.", "anchors": ["python/cython/PyElements.pyx:PyElements.initializeAsPyMca", "src/fisx_elements.cpp:Elements::Elements"]}
{"id": "C153", "title": "The size of the calculation cache", "statement": "The cache size of an element is the number of different energies stored: 0 for a new element and after clearing; after a successful fillCache the number of different ones among the first 10000 given; after a successful updateCache the number of different ones stored or given, but at most 10000, nothing stored being lost. The library reports the size and the enabled flag of the element asked for.", "quantifier": "every element, history of calls, list of energies of any length and library", "why_tests_cant": "All lists, repetitions and lengths beyond the limit, after every history.", "anchors": ["src/fisx_element.cpp:Element::getCacheSize", "src/fisx_element.cpp:Element::fillCache", "src/fisx_element.cpp:Element::updateCache", "src/fisx_element.cpp:Element::isCacheEnabled", "src/fisx_elements.cpp:Elements::getCacheSize"]}
{"id": "C154", "title": "Layers can be given to PyXRF as instances or by their fields", "statement": "PyXRF.setSample, setBeamFilters and setAttenuators take a list of layers given all as instances, all by four fields or all by three (the funny factor is then 1); the configuration then has these layers in this order and nothing else changes. Any other list raises an exception and the configuration is as it was.", "quantifier": "every list of items of any length, every configuration and reference layer", "why_tests_cant": "All lists and mixtures of items; reading a null pointer is not observable in general.", "anchors": ["python/cython/PyXRF.pyx:PyXRF.setSample", "python/cython/PyXRF.pyx:PyXRF.setBeamFilters", "python/cython/PyXRF.pyx:PyXRF.setAttenuators", "src/fisx_xrfconfig.cpp:XRFConfig::setSample"]}
{"id": "C155", "title": "PyMaterial compositions", "statement": "A composition given to PyMaterial as a dictionary or as lists of names, as str or bytes, and amounts comes back with each name as str and its part of the total; amounts that are not positive or lists of different length raise ValueError and leave the material as it was.", "quantifier": "every material, dictionary, list of names and amounts", "why_tests_cant": "All compositions and lengths.", "anchors": ["python/cython/PyMaterial.pyx", "src/fisx_material.cpp:Material::setComposition"]}
{"id": "C156", "title": "The constructor of PyElements uses the files it is given", "statement": "PyElements(directory, bindingEnergiesFile, crossSectionsFile, pymca) makes the library of these files, the ones left out coming from the directory.", "quantifier": "every directory, pair of files, content of the files and flag", "why_tests_cant": "All file contents and combinations of arguments left out.", "anchors": ["python/cython/PyElements.pyx:PyElements.__cinit__", "src/fisx_elements.cpp:Elements::Elements"]}
{"id": "C157", "title": "Splitting a layer of the sample changes nothing", "statement": "Describing a layer of the sample (one without holes, that is with funny factor 1) as two consecutive layers of the same material and density whose thicknesses add up to that of the layer does not change the primary fluorescence reaching the detector, apart from the geometric efficiency (which depends on the depth of each layer): whenever both calculations return, the two parts together give what the layer gives, line by line, and every other layer gives what it gave.", "quantifier": "every sample, layer of it and way of dividing it, every beam, requests (for all the layers), filters, attenuators, detector and sound library", "why_tests_cant": "All samples, positions and divisions; the terms are products of exponentials of all the layers above.", "anchors": ["src/fisx_multilayer.cpp:XRF::getMultilayerFluorescence", "src/fisx_xrf.cpp:XRF::getLayerTransmission"]}
{"id": "C158", "title": "Calculations in several Python threads", "statement": "PyXRF.getFluorescence and PyXRF.getMultilayerFluorescence let other threads run while they calculate. Whatever these do, a calculation gives the fluorescence of the configuration, library and beam as they were when it was called, the objects end as the other calls leave them, and calculations that share objects do not disturb each other.", "quantifier": "every number of threads, every interleaving of calculations, of their reads and of other calls, every configuration, library, beam and request", "why_tests_cant": "The interleavings of threads cannot be enumerated, and a data race need not show.", "anchors": ["python/cython/PyXRF.pyx:PyXRF.getMultilayerFluorescence", "python/cython/PyXRF.pyx:PyXRF.getFluorescence", "python/cython/XRF.pxd", "src/fisx_multilayer.cpp:XRF::getMultilayerFluorescence"]}
{"id": "C159", "title": "The composition of a formula is computed from masses that were set", "statement": "Elements.getCompositionFromFormula (and every composition, coefficient and fluorescence calculation using formulas) weights the atoms of a formula by atomic masses that were set; it never reads a mass nobody set, whichever elements the user added to the library.", "quantifier": "every library, set of elements added with or without mass, formula", "why_tests_cant": "All libraries and formulas; reading an uninitialised variable often gives plausible values.", "anchors": ["src/fisx_elements.cpp:Elements::getCompositionFromFormula", "src/fisx_elements.cpp:Elements::addElement", "src/fisx_element.cpp:Element::Element", "src/fisx_element.cpp:Element::getAtomicMass"]}
{"id": "C160", "title": "The order of filters and attenuators does not matter", "statement": "Two configurations that differ only in the order of their beam filters, user-supplied beam filters, attenuators and user-supplied attenuators give exactly the same fluorescence result: one calculation succeeds if and only if the other does, and then every element, line, layer and correction agrees.", "quantifier": "every library, configuration, reordering, and request", "why_tests_cant": "All configurations and permutations; filters are applied by a loop that attenuates the beam in place.", "anchors": ["src/fisx_multilayer.cpp:XRF::getMultilayerFluorescence", "src/fisx_xrfconfig.cpp:XRFConfig::setBeamFilters", "src/fisx_xrfconfig.cpp:XRFConfig::setAttenuators"]}
{"id": "C161", "title": "Adding to the library is conservative", "statement": "Adding a material or an element to the library under a new name does not change what was known before: the composition of every name and mixture that had one, all coefficients, and the result of every calculation for layers whose compositions were known.", "quantifier": "every library, every material or element with a new name, every name, mixture and configuration", "why_tests_cant": "Names are resolved recursively through formulas, supplied materials and the library; all histories and all calculations must be covered.", "anchors": ["src/fisx_elements.cpp:Elements::addElement", "src/fisx_elements.cpp:Elements::addMaterial", "src/fisx_elements.cpp:Elements::getComposition", "src/fisx_multilayer.cpp:XRF::getMultilayerFluorescence"]}
{"id": "C162", "title": "Attenuators and detector geometry only scale what is detected", "statement": "Attenuators, user attenuators, the reference layer, and the distance, size, density and thickness of the detector do not change which lines and escape peaks are reported, nor their energies, primary, secondary and tertiary excitation, sources and mass fractions. The rates of a line and of its escape peaks are proportional to the efficiency of the line, and one more attenuator multiplies efficiency and rates by its transmission at the energy of the line.", "quantifier": "every library, configuration, list of attenuators, detector, request and option", "why_tests_cant": "All configurations and lines; excitation and detection are interleaved in one function.", "anchors": ["src/fisx_multilayer.cpp:XRF::getMultilayerFluorescence", "src/fisx_xrfconfig.cpp:XRFConfig::setAttenuators", "src/fisx_xrfconfig.cpp:XRFConfig::setBeamFilters"]}
{"id": "C163", "title": "A beam filter is a change of the weights of the beam", "statement": "A calculation with a beam filter gives exactly the result of the calculation without that filter and with a beam whose weights are multiplied by the transmission of the filter at the energy of each ray.", "quantifier": "every library, configuration, filter at any position, beam given with the call, request and option", "why_tests_cant": "All beams and filters.", "anchors": ["src/fisx_multilayer.cpp:XRF::getMultilayerFluorescence", "src/fisx_xrfconfig.cpp:XRFConfig::setAttenuators", "src/fisx_xrfconfig.cpp:XRFConfig::setBeamFilters"]}
{"id": "C164", "title": "What is below a layer does not change its primary fluorescence", "statement": "For each layer of the sample, the lines reported, their energies, primary excitation, efficiencies and mass fractions do not depend on the layers below it.", "quantifier": "every library, sample, change of the layers below, request and option (without geometric efficiency)", "why_tests_cant": "All samples; each layer is handled in loops over all layers.", "anchors": ["src/fisx_multilayer.cpp:XRF::getMultilayerFluorescence", "src/fisx_xrfconfig.cpp:XRFConfig::setSample"]}
{"id": "C165", "title": "The beam of a configuration file", "statement": "After readConfigurationFromFile the beam has exactly the energies of the section [fit] whose switch is on, in ascending order, with the weights of the file divided by their sum and with the scattering flags of the file (negative ones become 0; weights, flags and switches that are left out are 1). A used energy that is not positive or a used negative weight makes the file refused and nothing is changed. No memory outside of the lists is read.", "quantifier": "every file, every earlier configuration", "why_tests_cant": "Four lists of any length are edited in place from the end to the start; all lengths, switches and values must be covered.", "anchors": ["src/fisx_xrfconfig.cpp:XRFConfig::readConfigurationFromFile", "src/fisx_beam.cpp:Beam::setBeam"]}
{"id": "C166", "title": "The geometry and the detector of a configuration file", "statement": "After readConfigurationFromFile the angles are those of the last enabled sample entry of [attenuators] (the scattering angle is the sum of the two others unless the entry gives one), the layer of the detector is that of the last enabled detector entry, distance and active area are those of [concentrations] in any case of letters, and what is not given for the detector is what a new detector has.", "quantifier": "every file with these sections, every earlier configuration", "why_tests_cant": "All files and all earlier configurations; state left by an earlier reading must not leak.", "anchors": ["src/fisx_xrfconfig.cpp:XRFConfig::readConfigurationFromFile", "src/fisx_detector.cpp:Detector::setActiveArea"]}
{"id": "C167", "title": "The user tables of a configuration file", "statement": "After readConfigurationFromFile the user beam filters and the user attenuators are exactly the tables of the sections [UserBeamFilters.*] and [UserAttenuators.*] that are switched on, in the order of the file, each with the name, comment, energies and transmissions of its own section.", "quantifier": "every file", "why_tests_cant": "All numbers of sections; variables are shared by the iterations.", "anchors": ["src/fisx_xrfconfig.cpp:XRFConfig::readConfigurationFromFile", "src/fisx_transmissiontable.cpp:TransmissionTable::setTransmissionTable"]}
{"id": "C168", "title": "PyMath.deBoerL0 without a thickness", "statement": "PyMath().deBoerL0(mu1, mu2, muj) with the default density and thickness is the thick target limit, as its documentation says: the value the secondary excitation integral tends to for an infinite thickness.", "quantifier": "all positive coefficients", "why_tests_cant": "Three continuous parameters and a limit of a double integral.", "anchors": ["python/cython/PyMath.pyx:PyMath.deBoerL0", "src/fisx_math.cpp:Math::deBoerL0"]}
{"id": "C169", "title": "Nested results in Python", "statement": "Results of C++ made of nested maps are dictionaries with str keys in Python: every path has the value the C++ result has at this path and nothing else, no key is bytes, the entries and their order are kept; a dictionary with str keys given to C++ and read back is the same.", "quantifier": "every nested map, of any depth and size", "why_tests_cant": "All shapes of nested dictionaries.", "anchors": ["python/fisx/FisxCythonTools.py:toStringKeysAndValues", "python/fisx/FisxCythonTools.py:toBytesKeysAndValues"]}
{"id": "C170", "title": "The data directory", "statement": "FISX_DATA_DIR is the installed directory if it exists, otherwise the nearest fisx/fisx_data in the directory of the module or in one above it, otherwise the one of the environment; otherwise importing raises IOError. FISX_DOC_DIR is found the same way, ending with the data directory. What is found for the data exists, and the search always ends.", "quantifier": "every file system, every place of the module, every environment", "why_tests_cant": "All file systems and depths of directories.", "anchors": ["python/fisx/DataDir.py"]}
{"id": "C171", "title": "Only the mass thickness of a layer counts", "statement": "The result of getMultilayerFluorescence without geometric efficiencies is the same, whatever it is (numbers, exception), when the density and the thickness of layers of the sample, filters, attenuators or of the detector are replaced by others with the same product; with geometric efficiencies it is as long as those are the same.", "quantifier": "all configurations, libraries, beams, options and requests", "why_tests_cant": "Densities and thicknesses of any number of layers, with secondary and tertiary excitation.", "anchors": ["src/fisx_multilayer.cpp:XRF::getMultilayerFluorescence", "src/fisx_math.cpp:Math::deBoerL0", "src/fisx_layer.cpp:Layer::getTransmission"]}
{"id": "C172", "title": "How the material of a layer is given does not matter", "statement": "The result of getMultilayerFluorescence depends on the layers only through the amounts of the elements they are made of, their mass thickness and the covered fraction: not on names, nor on whether the material is a formula, a named material of the configuration or of the library, or a material object, nor on materials no layer uses.", "quantifier": "all pairs of configurations whose layers have the same getLayerComposition, all libraries, beams, options and requests", "why_tests_cant": "All ways to describe all materials.", "anchors": ["src/fisx_multilayer.cpp:XRF::getMultilayerFluorescence", "src/fisx_xrf.cpp:XRF::getLayerComposition"]}
{"id": "C173", "title": "A thicker layer emits more and hides more", "statement": "When one layer of the sample is made thicker or denser, the same lines are returned; the layer emits no less primary fluorescence, with the same efficiency; the layers below emit no more and with no larger efficiency; and the primary fluorescence of any layer stays below that of an infinitely thick one.", "quantifier": "all configurations, libraries with nonnegative data, beams, requests, layers, thicknesses and lines", "why_tests_cant": "Any thickness, any number of layers and lines.", "anchors": ["src/fisx_multilayer.cpp:XRF::getMultilayerFluorescence"]}
{"id": "C174", "title": "More photons give more primary fluorescence, a filter never does", "statement": "If two calculations differ only in the beam and its filters, the rays having the same energies and, behind the filters, no fewer photons in the first, then each line of the second is reported by the first with no less primary fluorescence. In particular a beam filter or a user transmission table put anywhere among the others adds no line and increases no primary fluorescence.", "quantifier": "all configurations, libraries with nonnegative data, beams with nonnegative weights, filters, tables, requests and lines", "why_tests_cant": "Any number of rays, filters, layers and lines.", "anchors": ["src/fisx_multilayer.cpp:XRF::getMultilayerFluorescence", "src/fisx_transmissiontable.cpp:TransmissionTable::getTransmission"]}
{"id": "C175", "title": "The layer of a request only selects", "statement": "Of the layer numbers of the requests only whether they include a layer (its number, or a negative number for all layers) matters for that layer: lines, energies, primary excitation, secondary excitation from each source, mass fractions and efficiencies returned for it are the same with other numbers that include it in the same requests, and so is the rate when there is no detector material and no tertiary excitation. Nothing is returned for layers no request includes, nor for layers the sample does not have.", "quantifier": "all configurations, libraries, beams, options, lists of requests, layers and lines", "why_tests_cant": "Any combination of layers and requests; secondary excitation mixes layers.", "anchors": ["src/fisx_multilayer.cpp:XRF::getMultilayerFluorescence"]}
{"id": "C176", "title": "Without mass fractions the excitation is per unit of mass fraction", "statement": "getMultilayerFluorescence with useMassFractions=0 returns every line it returns with useMassFractions=1, with the same energy and efficiency; the primary excitation and the secondary excitation from each source with mass fractions are those without multiplied by the mass fraction of the element in the layer (and so is the rate, without tertiary excitation and detector material). The lines returned only without mass fractions are those of elements that are not in the layer.", "quantifier": "all configurations, libraries, beams, options, requests, layers and lines", "why_tests_cant": "Any sample, beam and secondary excitation.", "anchors": ["src/fisx_multilayer.cpp:XRF::getMultilayerFluorescence"]}
{"id": "C177", "title": "Secondary excitation is only added", "statement": "Asking for secondary or tertiary excitation, and the limit for the lines considered as sources, change neither the lines returned nor their energies, primary excitation, mass fractions and efficiencies. Without asking for secondary excitation there is none.", "quantifier": "all configurations, libraries, beams, pairs of options, requests, layers and lines", "why_tests_cant": "Any sample, beam and options.", "anchors": ["src/fisx_multilayer.cpp:XRF::getMultilayerFluorescence"]}
{"id": "C178", "title": "The calculation limit only selects sources of secondary excitation", "statement": "Changing secondaryCalculationLimit (optimizationFactor) of getMultilayerFluorescence leaves the contribution of every source whose rate is not below either limit for any ray unchanged; a line whose rate is below a positive limit for every ray contributes nothing; the contribution of the scattered beam never depends on the limit; limits that are not positive all give the same secondary excitation.", "quantifier": "all configurations, libraries, beams, pairs of limits, requests, sources, layers and lines", "why_tests_cant": "Any sample, beam and limit.", "anchors": ["src/fisx_multilayer.cpp:XRF::getMultilayerFluorescence", "src/fisx_xrf.cpp:XRF::getFluorescence"]}
{"id": "C179", "title": "Densities, thicknesses, distances and diameters that are not numbers are refused", "statement": "The setters of layers, detectors and materials refuse infinite values and NaN for densities, thicknesses, distances and diameters; a layer never has a density or thickness that is not finite.", "quantifier": "all layers, detectors, materials and double arguments, finite or not, and all histories of calls", "why_tests_cant": "Every state and every special value.", "anchors": ["src/fisx_layer.cpp:Layer::setDensity", "src/fisx_layer.cpp:Layer::setThickness", "src/fisx_layer.cpp:Layer::setMaterial", "src/fisx_detector.cpp:Detector::setDistance", "src/fisx_detector.cpp:Detector::setDiameter", "src/fisx_material.cpp:Material::initialize"]}
{"id": "C180", "title": "Amounts of a composition that are not numbers are refused", "statement": "Material.setComposition refuses infinite amounts and NaN; the mass fractions it stores are finite.", "quantifier": "all materials, lists of names and lists of double amounts, finite or not", "why_tests_cant": "Every list and every special value in any position.", "anchors": ["src/fisx_material.cpp:Material::setComposition"]}
{"id": "C181", "title": "Setting a beam is defined for all numbers", "statement": "Setting a beam with any energies and weights either is refused or stores the rays sorted by energy with normalised weights.", "quantifier": "all lists of rays with double energies and weights, finite or not, and every sorting routine allowed by the standard", "why_tests_cant": "std::sort is only defined for comparisons that are strict weak orders; what happens otherwise depends on the library.", "anchors": ["src/fisx_beam.cpp:Beam::normalizeBeam", "src/fisx_beam.h:Ray::operator<"]}
{"id": "C182", "title": "Rows of a transmission table that are not numbers are refused", "statement": "setTransmissionTable refuses rows with NaN; the energies of the rows it accepts are in ascending order.", "quantifier": "all lists of rows of doubles, finite or not", "why_tests_cant": "Every list and every special value in any position.", "anchors": ["src/fisx_transmissiontable.cpp:TransmissionTable::setTransmissionTable"]}
{"id": "C183", "title": "Compositions are normalised up to rounding", "statement": "Computed with floating point numbers, Material.setComposition accepts the same calls as in exact arithmetic; the fractions it stores are positive, at most one, differ from the exact fractions by at most the part 2(n+1)u and add up to one within 2(n+1)u, n the number of components and u the unit roundoff.", "quantifier": "all roundings (IEEE double among them), materials, lists of distinct names and positive amounts", "why_tests_cant": "A bound on the accumulated error for every list and every rounding.", "anchors": ["src/fisx_material.cpp:Material::setComposition"]}
{"id": "C184", "title": "Beam weights are normalised up to rounding", "statement": "Computed with floating point numbers, setBeam with weights that are not negative gives a beam sorted by energy with one ray for each ray given; the weights differ from the exact shares by at most the part 2(n+1)u and add up to one within 2(n+1)u; weights that are all zero are left alone.", "quantifier": "all roundings, beams, lists of energies and optional vectors covering them, sorting routines", "why_tests_cant": "A bound on the accumulated error for every beam and every rounding.", "anchors": ["src/fisx_beam.cpp:Beam::setBeam", "src/fisx_beam.cpp:Beam::normalizeBeam"]}
{"id": "C185", "title": "Fluorescence ratios are normalised up to rounding", "statement": "Computed with floating point numbers, the fluorescence ratios of a shell are those of the positive rates other than TOTAL, positive, off by at most the part 2(n+1)u of the exact ratio, and add up to one within 2(n+1)u.", "quantifier": "all roundings, shells and lists of labels and rates that are not negative, one of them positive", "why_tests_cant": "A bound on the accumulated error for every list of rates and every rounding.", "anchors": ["src/fisx_shell.cpp:Shell::setRadiativeTransitions", "src/fisx_shell.cpp:Shell::_updateFluorescenceRatios"]}
{"id": "C186", "title": "The interpolation in a transmission table is accurate", "statement": "Computed with floating point numbers, getTransmission returns tabulated values exactly, the first and the last value outside of the table, and between two rows a value that lies between the two tabulated ones up to three roundings, is not negative and differs from the straight line by at most 13u times the larger of the two.", "quantifier": "all roundings, tables and energies", "why_tests_cant": "Every energy between every two rows, and every rounding.", "anchors": ["src/fisx_transmissiontable.cpp:TransmissionTable::getTransmission"]}
{"id": "C187", "title": "Transmissions stay between zero and one with rounding", "statement": "Computed with floating point numbers, the transmission of a layer is never negative and never above one and differs from the exact one at most by 9u plus the relative error of exp, a thicker layer or a larger coefficient never gives a larger transmission, and the weight of a ray behind any list of filters is never negative, never larger than before and correct up to one rounding for each filter.", "quantifier": "all roundings (for funny factors below one: IEEE double), all implementations of exp with values between 0 and 1 for arguments that are not positive, all layers, angles, coefficients and lists of filters", "why_tests_cant": "Every combination of thickness, coefficient and rounding.", "anchors": ["src/fisx_layer.cpp:Layer::getTransmission", "src/fisx_multilayer.cpp:XRF::getMultilayerFluorescence"]}
{"id": "C188", "title": "PyShell and PySimpleIni are used with names", "statement": "Names of shells, transitions, constants and sections can be given as str or as bytes and mean the same; what PyShell and PySimpleIni return has an entry for every name of the C++ object, found under this name.", "quantifier": "every shell, list of names, dictionary of constants, ini file and name", "why_tests_cant": "All names and both kinds of text, for every state of the shell.", "anchors": ["python/cython/PyShell.pyx", "python/cython/PySimpleIni.pyx", "python/cython/Shell.pxd"]}
{"id": "C189", "title": "PyTransmissionTable", "statement": "Names and comments of a PyTransmissionTable come back as str; a table that is refused raises ValueError and leaves the table as it was; a dictionary and the lists of its items in ascending order give the same table; the transmission of a list of energies has the answer of each of them in order.", "quantifier": "every table, dictionary, pair of lists, name and list of energies", "why_tests_cant": "All dictionaries and lists, in every order.", "anchors": ["python/cython/PyTransmissionTable.pyx", "src/fisx_transmissiontable.cpp:TransmissionTable::setTransmissionTable"]}
{"id": "C190", "title": "The library of elements in Python does what it does in C++", "statement": "Every method of fisx.Elements, called with names as str, as bytes or as a mix of both, does what the C++ method does with the same names: any sequence of calls (materials, files of shell data and of mass attenuation coefficients, caches, queries) leaves the library that the same sequence in C++ leaves, every answer is that of C++ with all its names as str, an exception of C++ is raised in Python as the corresponding exception and never ends the process, and getShellConstantsFile and getShellRadiativeTransitionsFile give back the name of the file loaded last without an error.", "quantifier": "all sequences of calls, all spellings of the names, all libraries, all files and all dictionaries", "why_tests_cant": "The sequences of calls, the spellings and the contents of the files are unbounded, and a test with one spelling says nothing about the other.", "anchors": ["python/cython/PyElements.pyx: PyElements", "python/cython/Elements.pxd", "python/fisx/FisxCythonTools.py: toBytes, toBytesKeys, toStringKeys, toStringKeysAndValues, toStringList", "src/fisx_elements.cpp"]}
{"id": "C191", "title": "The single element of Python does what it does in C++", "statement": "fisx.Element(name) makes an element; every method of fisx.Element, called with names as str or as bytes, does what the C++ method does with the same names, any sequence of calls leaves the element that it leaves in C++, exceptions of C++ are raised in Python, and what the methods give back can be looked up with the names that were given.", "quantifier": "all elements, all sequences of calls, all names and spellings, all dictionaries and vectors", "why_tests_cant": "Sequences of calls, names and tables are unbounded, and a test with one spelling says nothing about the other.", "anchors": ["python/cython/PyElement.pyx: PyElement", "python/cython/Element.pxd", "python/cython/default/_fisx.cpp", "src/fisx_element.cpp"]}
{"id": "C192", "title": "The detector of Python keeps its settings and answers for the library it is given", "statement": "A fisx.Detector has, after any calls, the material, density and thickness it was made with and the diameter or area, distance and number of escape peaks set last (a wrong size raises ValueError and changes nothing). getEscape(energy, library) gives the escape peaks of the library given now, with str keys, also after other libraries, settings or exceptions; with update=0 this holds as long as each label always names the same library.", "quantifier": "all detectors, all sequences of calls, all libraries, labels, energies and settings", "why_tests_cant": "Whether a kept answer is out of date depends on the whole history of calls, libraries and labels.", "anchors": ["python/cython/PyDetector.pyx: PyDetector", "python/cython/Detector.pxd", "src/fisx_detector.cpp"]}
{"id": "C193", "title": "PyXRF has what was set last", "statement": "A fisx.XRF can be made of a configuration file or without one. A call that sets the beam, the filters, the sample, the attenuators, the user tables, the detector or the geometry is accepted or refused whatever was set before; an accepted one changes this setting only, a refused one raises an exception and changes nothing. After any calls each setting is that of the last accepted call about it; two objects with the same last accepted calls give the same answers.", "quantifier": "all sequences of calls with all arguments, all earlier states, all files", "why_tests_cant": "Sequences of calls are unbounded, and every pair of settings could disturb each other.", "anchors": ["python/cython/PyXRF.pyx: PyXRF", "python/cython/XRF.pxd", "python/cython/default/_fisx.cpp", "src/fisx_xrf.cpp", "src/fisx_xrfconfig.cpp"]}
{"id": "C194", "title": "Rates asked for with strings in Python", "statement": "PyXRF.getMultilayerFluorescence takes a list of requests, each as str or bytes, and gives the rates of C++ for them, with str keys: each number can be looked up under its request, layer, line and name, and there is nothing else. A request \"Fe K 0\" has the rates that getFluorescence gives for element Fe, layer 0 and family K.", "quantifier": "all lists of requests and spellings, all configurations, libraries, beams and options", "why_tests_cant": "All requests, layers, lines and names of entries of all configurations.", "anchors": ["python/cython/PyXRF.pyx: PyXRF.getMultilayerFluorescence, PyXRF.getFluorescence", "python/fisx/FisxCythonTools.py", "src/fisx_xrf.cpp"]}
{"id": "C195", "title": "Questions about a layer in PyXRF", "statement": "PyXRF answers what C++ answers about a layer: the mass attenuation coefficients (at one energy numbers, at several lists with one number per energy, under str names), the transmission (at one energy a number, at several a list; 90 degrees when no angle is given; the sign of the angle does not count; exp(-mass per area * total coefficient) for the covered part), the composition and the solid angle of the detector. Exceptions of C++ are raised in Python. The answers about a layer depend on no setting; the solid angle on the sample, the detector and the geometry only. The composition can be handed to the library to ask for the same coefficients.", "quantifier": "all layers, energies and lists of energies, angles, libraries, configurations and sequences of calls that set something", "why_tests_cant": "All layers, lists and histories; a test sees a few.", "anchors": ["python/cython/PyXRF.pyx: getLayerMassAttenuationCoefficients, getLayerTransmission, getLayerComposition, getGeometricEfficiency", "python/cython/XRF.pxd", "src/fisx_xrf.cpp", "src/fisx_elements.cpp: Elements::getMassAttenuationCoefficients"]}
{"id": "C196", "title": "PyEPDL97: the object", "statement": "A new PyEPDL97 reads the directory that is named (str or bytes), or the one of the package when none is; if C++ throws there is an exception and no object. Whatever calls are made later in Python, refused ones included, the object is the one that the calls of C++ with the same arguments make. Binding energies that are set for a loaded element come back, under str names, and those of the other elements stay.", "quantifier": "all directories and contents of files, names, sequences of calls and elements", "why_tests_cant": "All files and histories; a test sees a few.", "anchors": ["python/cython/PyEPDL97.pyx: __cinit__, setDataDirectory, setBindingEnergies, getBindingEnergies", "python/cython/EPDL97.pxd", "src/fisx_epdl97.cpp: EPDL97::setDataDirectory, EPDL97::setBindingEnergies, EPDL97::getBindingEnergies"]}
{"id": "C197", "title": "PyEPDL97: coefficients and weights", "statement": "PyEPDL97 gives, in dictionaries with str keys, what C++ gives: without energies the table of the element; with energies (a number is a list of one) lists with one value per energy, in order, each what C++ gives for that energy alone; the weights are the ten of C++ and, under 'mu ...', the coefficients they were made of, and nothing else. In each answer the photoelectric coefficient is the sum of its shells and the total that of the four processes. Exceptions of C++ are raised: RuntimeError below atomic number one.", "quantifier": "all objects, atomic numbers, energies and lists of energies", "why_tests_cant": "All objects and lists of energies; a test sees a few.", "anchors": ["python/cython/PyEPDL97.pyx: getMassAttenuationCoefficients, getPhotoelectricWeights", "python/cython/FisxCythonTools.py: toStringKeys", "src/fisx_epdl97.cpp: EPDL97::getMassAttenuationCoefficients, EPDL97::getPhotoelectricWeights"]}
{"id": "C198", "title": "A specfile that is written is read back", "statement": "A file written in the format of the package (any number of scans, each with a title, header lines, labels separated by two or more blanks and rows of numbers separated by blanks, closed by a blank line; with LF or CRLF) is read back in C++ and in Python: as many scans, and for each its labels (str in Python) and its numbers, in order. A file that cannot be opened gives an object without scans; an index that is not that of a scan, a negative one too, raises ValueError.", "quantifier": "all lists of scans, titles, header lines, labels, rows of numbers and ends of line; all names and indices", "why_tests_cant": "All files; a test sees two.", "anchors": ["src/fisx_simplespecfile.cpp: SimpleSpecfile::setFileName, getNumberOfScans, getScanLabels, getScanData", "python/cython/PySimpleSpecfile.pyx"]}
{"id": "C199", "title": "A layer made in Python is the layer described", "statement": "PyLayer(name, density=1, thickness=1, funny=1) followed by any setMaterial calls: the name may be str or bytes; the sizes given are those of the layer, 1 where not given, those of the first material where not positive (density: negative); getComposition is that of the material given last, or of what is named where none was given, with the elements as str; getPeakFamilies is the ascending list of C++; getTransmission gives a list with one Beer-Lambert value per energy, also for a single energy. An argument that is not a material raises an exception.", "quantifier": "all names, sizes, sequences of materials, libraries, energies and angles", "why_tests_cant": "All sequences of materials and all libraries; a test tries a few.", "anchors": ["python/cython/PyLayer.pyx: PyLayer", "src/fisx_layer.cpp: Layer"]}
{"id": "C200", "title": "The fluorescence yield of a shell is the last one given", "statement": "After any sequence of calls to a Shell, rejected ones included, each of its constants (omega and the Coster-Kronig yields its name allows) has the last value given for it, zero if none was given, and getFluorescenceYield returns that of omega without failing. A map of constants gives its values in the order of the names up to the first name that is not a constant of the shell.", "quantifier": "all shell names, all sequences of setter calls with any arguments", "why_tests_cant": "All call histories; a test follows a few.", "anchors": ["src/fisx_shell.cpp: Shell::getFluorescenceYield", "src/fisx_shell.cpp: Shell::setShellConstants", "src/fisx_shell.cpp: Shell::Shell"]}
