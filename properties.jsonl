{"id": "C01", "title": "Base64 decoding inverts encoding", "statement": "For every non-empty byte string s, Base64::decode(Base64::encode(s)) returns exactly s, without an exception or undefined behaviour.", "quantifier": "every non-empty byte string, any length (all three residues mod 3) and any byte values including 0x00 and 0x80..0xff", "why_tests_cant": "The domain is all finite byte strings; a test only samples lengths and byte patterns, and a bug in one bit mask or in one padding branch shows only on particular bit patterns.", "anchors": ["src/common/utils.cc: Base64::encode, Base64::decode"]}
{"id": "C02", "title": "Base64 output is RFC 4648 text and never contains the file separators", "statement": "Base64::encode(s) is the RFC 4648 encoding of s: it has 4*ceil(n/3) characters, each from the 64-letter alphabet or '=' padding, so it never contains '.' or '#', the characters used to join and split stored records.", "quantifier": "every byte string including the empty one", "why_tests_cant": "Absence of a separator in the output must hold for every stored value, not for the values a test happens to store.", "anchors": ["src/common/utils.cc: Base64::encode, Base64::charsMap"]}
{"id": "C03", "title": "A BinInput built from a 0/1 list returns that list", "statement": "BinInput(v) for a list v of zeros and ones has size() == len(v) and get(i) == v[i] for every i < len(v); get(i) for i >= len(v) throws.", "quantifier": "every 0/1 list of any length (including lengths that are not multiples of 8) and every index", "why_tests_cant": "Bit packing errors depend on the length modulo 8 and on neighbouring bits; only a proof covers all patterns.", "anchors": ["src/data/bininput.cc: BinInput, get, set, size, setConfig"]}
{"id": "C04", "title": "BinInput is a fixed-length bit array under any sequence of writes", "statement": "After any sequence of set(i,b) calls with b in {0,1}, size() is unchanged, get(i) is the value last written at i (or the initial bit), writes with i >= size() throw and change nothing.", "quantifier": "every initial BinInput, every finite sequence of writes, every index", "why_tests_cant": "Quantifies over all write histories.", "anchors": ["src/data/bininput.cc: get, set, size"]}
{"id": "C05", "title": "BinInput.data() round-trips", "statement": "BinInput(b.data()) has the same size and the same bits as b.", "quantifier": "every BinInput built from a list or from a size and then modified by any writes", "why_tests_cant": "Depends on base64 padding (length mod 3) combined with the trailing partial byte (length mod 8): 24 interacting residues over unbounded content.", "anchors": ["src/data/bininput.cc: BinInput(const std::string&), data", "src/common/utils.cc: Base64, convertToBytes, convertToValue"]}
{"id": "C06", "title": "BinInput.set changes only the addressed position", "statement": "set(i,v) never changes get(j) for j != i, whatever int v is.", "quantifier": "every BinInput, index and int value", "why_tests_cant": "Holds only for v in {0,1}; whether other values leak into neighbours depends on bit position and value jointly.", "anchors": ["src/data/bininput.cc: set"]}
{"id": "C07", "title": "A labelled DataSet survives save and load", "statement": "Saving a non-empty DataSet whose entries all carry non-empty labels to a file that does not yet exist and loading that file yields a DataSet of the same size, with the same bits and the same label at every index.", "quantifier": "every non-empty dataset, any number of entries, any bit contents, any non-empty label bytes", "why_tests_cant": "The file format is a concatenation of records with separators; unambiguity must hold for all contents.", "anchors": ["src/data/dataset.cc: DataSet(std::string), save, add, get, getLabel", "src/common/utils.cc: Base64"]}
{"id": "C08", "title": "DataSet is an append-only list", "statement": "After any sequence of add calls, size() is the number of calls, get(i) is the i-th input added and getLabel(i) is its label if it was added with a non-empty label and throws otherwise.", "quantifier": "every finite sequence of add calls, labelled or not", "why_tests_cant": "Quantifies over all histories.", "anchors": ["src/data/dataset.cc: add, get, getLabel, size"]}
{"id": "C09", "title": "Saving a DataSet does not change it, and unlabelled or empty data sets can be reloaded", "statement": "save() leaves every getLabel result unchanged, and a saved DataSet with unlabelled entries, or with no entries, can be loaded back.", "quantifier": "every DataSet", "why_tests_cant": "Must hold for every mix of labelled and unlabelled entries.", "anchors": ["src/data/dataset.cc: save, DataSet(std::string)", "src/common/utils.cc: Base64::decode"]}
{"id": "C10", "title": "Saving twice under the same prefix keeps the data loadable", "statement": "Saving a DataSet under a prefix that was already used yields a file that loads as a DataSet containing the entries of both saves unchanged.", "quantifier": "every pair of labelled datasets saved in sequence under one prefix", "why_tests_cant": "Needs reasoning about the concatenation of two arbitrary files.", "anchors": ["src/data/dataset.cc: save"]}
{"id": "C11", "title": "A RAM's vote counts exactly the matching trained images", "statement": "After training a discriminator on any sequence of images with entries in [0,base), classify(x)[r] equals the number of trained images that agree with x on every position addressed by RAM r (0 instead when ignoreZero is set and x is zero on all of them): no two different patterns ever share a counter.", "quantifier": "every accepted mapping, base, training sequence (shorter than 2^31) and query image", "why_tests_cant": "Address aliasing needs particular patterns out of base^addressSize; the histories are unbounded.", "anchors": ["src/models/wisard/ram.cc: getIndex, train, getVote", "src/models/wisard/discriminator.cc: train, _classify"]}
{"id": "C12", "title": "Address sizes that do not fit 64 bits are rejected", "statement": "Creating a discriminator whose RAMs have n addresses with base^n > 2^64 throws, and every accepted RAM addresses patterns without collision.", "quantifier": "every base and every address size", "why_tests_cant": "The guard is arithmetic on unbounded exponents; the interesting cases overflow.", "anchors": ["src/models/wisard/ram.cc: checkLimitAddressSize", "src/common/utils.cc: ipow"]}
{"id": "C13", "title": "Training order does not matter to a discriminator", "statement": "Training the same images in any order gives the same classify result on every image and the same number of trainings.", "quantifier": "every pair of training sequences that are permutations of each other, every query", "why_tests_cant": "All permutations of unbounded sequences.", "anchors": ["src/models/wisard/discriminator.cc: train, classify, getNumberOfTrainings"]}
{"id": "C14", "title": "untrain undoes train", "statement": "Training an image and then untraining it leaves every classify result, every mental image value and the number of trainings as before.", "quantifier": "every reachable discriminator state and every valid image", "why_tests_cant": "Quantifies over all states.", "anchors": ["src/models/wisard/discriminator.cc: train, untrain", "src/models/wisard/ram.cc: train, untrain"]}
{"id": "C15", "title": "Votes under training and untraining histories", "statement": "After any history in which each untrained image was trained more often than it has been untrained so far, each vote equals matching trainings minus matching untrainings, and is never negative.", "quantifier": "every such finite history and every query", "why_tests_cant": "Quantifies over interleavings of train and untrain.", "anchors": ["src/models/wisard/ram.cc: train, untrain, getVote", "src/models/wisard/discriminator.cc: train, untrain"]}
{"id": "C16", "title": "ignoreZero silences only the all-zero pattern", "statement": "With ignoreZero a RAM votes 0 for an image that is zero on all its positions, whatever was trained, and votes exactly as without ignoreZero for all other images.", "quantifier": "every training history and query", "why_tests_cant": "Must hold for all states and queries.", "anchors": ["src/models/wisard/ram.cc: getVote"]}
{"id": "C17", "title": "Mental image counts trained non-zero pixels", "statement": "If base^addressSize <= 2^31, getMentalImage()[i] equals, for every position i, the number of trained images with a non-zero value at i multiplied by the number of RAM inputs wired to i.", "quantifier": "every accepted mapping with in-range indexes, every training sequence", "why_tests_cant": "Sums over all stored addresses; depends on digit extraction for every address.", "anchors": ["src/models/wisard/ram.cc: getMentalImage, convertToBase", "src/models/wisard/discriminator.cc: getMentalImage"]}
{"id": "C18", "title": "Default wiring covers the input", "statement": "A discriminator created with default options has ceil(entrySize/addressSize) RAMs of exactly addressSize inputs each, all wired inside the input, and every input position is read by at least one RAM; with completeAddressing=false it has floor(entrySize/addressSize) RAMs and no position is wired twice.", "quantifier": "every entrySize >= addressSize >= 2, every outcome of the random generator and of the shuffle", "why_tests_cant": "All random outcomes and all sizes.", "anchors": ["src/models/wisard/discriminator.cc: setRAMShuffle, checkAddressSize", "src/common/utils.cc: randint, calculateNumberOfRams"]}
{"id": "C19", "title": "A list of indexes is validated and used in order", "statement": "Creating a discriminator with option indexes succeeds only if indexes is a permutation of 0..entrySize-1, and then RAM r reads indexes[r*addressSize..(r+1)*addressSize).", "quantifier": "every index list, entry size, address size", "why_tests_cant": "All lists of integers, including negative and repeated ones.", "anchors": ["src/models/wisard/discriminator.cc: checkListOfIndexes, setRAMByIndex"]}
{"id": "C20", "title": "No out-of-range read for in-range wiring; out-of-range wiring is rejected", "statement": "Training or classifying with a discriminator whose wiring is inside [0,entrySize) never reads outside the image; a mapping with an index outside [0,entrySize) is rejected on construction or training.", "quantifier": "every mapping, every image", "why_tests_cant": "Undefined behaviour is not reliably observable by running tests.", "anchors": ["src/models/wisard/discriminator.cc: setRAMByMapping", "src/models/wisard/ram.cc: getIndex"]}
{"id": "C21", "title": "An image of the wrong length is rejected and changes nothing", "statement": "train, untrain and classify on a discriminator with an image whose length differs from entrySize throw and leave all state as it was.", "quantifier": "every discriminator state and every image of wrong length", "why_tests_cant": "All states.", "anchors": ["src/models/wisard/discriminator.cc: checkEntrySize, train, untrain, _classify"]}
{"id": "C22", "title": "A value not smaller than base is rejected", "statement": "An image with a wired value >= base makes train and classify throw; a failed train does not change the model.", "quantifier": "every state, every image with such a value at any wired position", "why_tests_cant": "Atomicity depends on which RAM meets the bad value first.", "anchors": ["src/models/wisard/ram.cc: checkPos, getIndex", "src/models/wisard/discriminator.cc: train"]}
{"id": "C23", "title": "Number of trainings", "statement": "getNumberOfTrainings equals the number of successful trainings minus the number of untrainings since creation.", "quantifier": "every history of train/untrain/classify", "why_tests_cant": "All histories.", "anchors": ["src/models/wisard/discriminator.cc: train, untrain, getNumberOfTrainings"]}
{"id": "C24", "title": "Batch training equals one-by-one training", "statement": "train(list of images) leaves the model in exactly the state reached by training the images one at a time in order; if one image is rejected, the images before it stay trained.", "quantifier": "every batch, every position of the first rejected image", "why_tests_cant": "All batches and failure points.", "anchors": ["src/models/wisard/discriminator.cc: train(vector<vector<int>>)", "src/models/wisard/wisard.cc: train"]}
{"id": "C25", "title": "BinInput and list images are interchangeable", "statement": "Training or classifying with a BinInput gives the same results and state as with the equivalent list of zeros and ones.", "quantifier": "every state and every 0/1 image", "why_tests_cant": "Two template instantiations over all inputs.", "anchors": ["src/models/wisard/ram.cc: train<T>, getVote<T>", "src/models/wisard/discriminator.cc: train<T>, _classify<T>", "src/data/bininput.cc: operator[]"]}
{"id": "C26", "title": "Memory accounting", "statement": "getsizeof never decreases through training, grows by at most 12 bytes per RAM per trained image and does not grow when a previously trained image is trained again; untraining never shrinks it.", "quantifier": "every history", "why_tests_cant": "All histories.", "anchors": ["src/models/wisard/ram.cc: getsizeof", "src/models/wisard/discriminator.cc: getsizeof"]}
{"id": "C27", "title": "A trained discriminator survives json()", "statement": "Discriminator(d.json()) classifies every image exactly as d does, has the same mental image and number of trainings, and stays indistinguishable from d under any further training and untraining.", "quantifier": "every discriminator trained on at least one image, every hash-table iteration order, every later history", "why_tests_cant": "Equality after reload must hold for all later inputs.", "anchors": ["src/models/wisard/discriminator.cc: json, Discriminator(nl::json), setRAMsData, getRAMsData", "src/models/wisard/ram.cc: RAM(nl::json), getData", "src/models/wisard/ramdatahandle.cc: data, setData, dataToRam"]}
{"id": "C28", "title": "An untrained discriminator survives json()", "statement": "Discriminator(d.json()) succeeds for a d that was never trained.", "quantifier": "every untrained discriminator", "why_tests_cant": "Edge of the serialization format; holds for all or none.", "anchors": ["src/models/wisard/discriminator.cc: getRAMsData, setRAMsData", "src/models/wisard/ramdatahandle.cc: setData"]}
{"id": "C29", "title": "json(huge=true) round-trips through files", "statement": "For a trained discriminator, json(true,path) followed by construction from that json gives an indistinguishable discriminator.", "quantifier": "every trained discriminator, path and content of the file system", "why_tests_cant": "Depends on prior file contents: any file system state.", "anchors": ["src/models/wisard/discriminator.cc: getRAMsData, setRAMsData", "src/common/utils.cc: getRandomString"]}
{"id": "C30", "title": "RAMDataHandle text round-trips", "statement": "For a handle of RAMs 0..n-1, each non-empty, RAMDataHandle(h.data()).compare(h) is true.", "quantifier": "every number and content of RAMs, every iteration order", "why_tests_cant": "All contents.", "anchors": ["src/models/wisard/ramdatahandle.cc: RAMDataHandle, setData, data, dataToRam"]}
{"id": "C31", "title": "RAMDataHandle.compare is equality of contents", "statement": "compare returns true exactly when both handles hold the same RAM indexes and, for each, the same address/value pairs; it does not depend on iteration order and is an equivalence.", "quantifier": "every pair of handles", "why_tests_cant": "All pairs.", "anchors": ["src/models/wisard/ramdatahandle.cc: compare"]}
{"id": "C32", "title": "Reading a RAMDataHandle does not change it, and data() terminates", "statement": "get(r,addr) and get(r) do not change later data() or compare results, and data() terminates.", "quantifier": "every handle and every sequence of reads", "why_tests_cant": "Non-termination cannot be observed by a finite test.", "anchors": ["src/models/wisard/ramdatahandle.cc: get, data"]}
{"id": "C33", "title": "A Wisard survives json()", "statement": "Wisard(w.json()) returns, for every image, the same label as w, and stays indistinguishable under further training on the existing labels, untraining and classification.", "quantifier": "every Wisard all of whose classes have at least one RAM and were trained successfully at least once, every later history", "why_tests_cant": "All later inputs.", "anchors": ["src/models/wisard/wisard.cc: json, Wisard(std::string), getConfig, getClassesJSON"]}
{"id": "C34", "title": "Reloading a Wisard keeps the user's mapping option", "statement": "A label given in the mapping option and first trained after a save/reload is wired according to that mapping.", "quantifier": "every mapping and label", "why_tests_cant": "Must hold for all labels.", "anchors": ["src/models/wisard/wisard.cc: getConfig, Wisard(std::string), makeDiscriminator"]}
{"id": "C35", "title": "jsonConfig output can be reloaded", "statement": "Wisard(w.jsonConfig()) and Discriminator(d.jsonConfig()) succeed, as the documentation says.", "quantifier": "every model", "why_tests_cant": "All models.", "anchors": ["src/models/wisard/discriminator.cc: jsonConfig, Discriminator(nl::json)", "src/models/wisard/wisard.cc: jsonConfig", "docs/models/wisard.md", "docs/models/discriminator.md"]}
{"id": "C36", "title": "A ClusWisard survives json()", "statement": "ClusWisard(c.json()) classifies every image (supervised and unsupervised) as c does.", "quantifier": "every trained ClusWisard", "why_tests_cant": "All images and states.", "anchors": ["src/models/cluswisard/cluswisard.cc: json, ClusWisard(std::string)", "src/models/cluswisard/cluster.cc: getJson, Cluster(nl::json)"]}
{"id": "C37", "title": "Classification terminates", "statement": "The bleaching loop ends for every vote table, after at most (largest vote + 1) rounds.", "quantifier": "every vote table with any number of classes and RAMs, every confidence", "why_tests_cant": "Termination over unbounded vote values.", "anchors": ["src/common/bleaching.cc: makeConfidenceless, isThereAmbiguity"]}
{"id": "C38", "title": "Bleaching returns the activation counts at the first adequate threshold", "statement": "With bleaching, every class score is the number of its RAM votes >= b, where b >= 1 is the same for all classes and is the least threshold at which the scores are unambiguous or no class scores above 1; without bleaching b = 1.", "quantifier": "every vote table, confidence and flag", "why_tests_cant": "All vote tables.", "anchors": ["src/common/bleaching.cc: make, makeConfidenceless"]}
{"id": "C39", "title": "The winner has maximal score, ties go to the greatest label", "statement": "classify returns a label with maximal score, the greatest in byte order among those of maximal score; \"\" exactly when there is no class (or the winning label is itself empty).", "quantifier": "every candidate table", "why_tests_cant": "All tables and orders.", "anchors": ["src/common/bleaching.cc: getBiggestCandidate", "src/models/wisard/wisard.cc: _classify"]}
{"id": "C40", "title": "With confidence 1 bleaching stops only at a unique winner or when no class scores above 1", "statement": "With bleaching and confidence 1, if the final top score is above 1, exactly one class attains it.", "quantifier": "every vote table", "why_tests_cant": "All vote tables.", "anchors": ["src/common/bleaching.cc: isThereAmbiguity, makeConfidenceless"]}
{"id": "C41", "title": "With confidence c the winner leads by c", "statement": "With bleaching and confidence c, if the final top score exceeds 1 then the best class leads every other class by at least c active RAMs, independently of label names.", "quantifier": "every vote table and every c", "why_tests_cant": "All tables; depends on the iteration order of labels.", "anchors": ["src/common/bleaching.cc: isThereAmbiguity", "docs/models/wisard.md"]}
{"id": "C42", "title": "searchBestConfidence has no effect on the result", "statement": "The result of classification is the same with searchBestConfidence on or off.", "quantifier": "every vote table, flag and confidence", "why_tests_cant": "All inputs.", "anchors": ["src/common/bleaching.cc: make, makeWithConfidence"]}
{"id": "C43", "title": "Bleaching never overturns a clear win", "statement": "If, without bleaching, one class has a strictly higher score than every other, classification with bleaching (confidence 1) returns the same label.", "quantifier": "every vote table", "why_tests_cant": "All vote tables.", "anchors": ["src/common/bleaching.cc: makeConfidenceless, getBiggestCandidate"]}
{"id": "C44", "title": "A trained image fully activates its class", "statement": "If an image was trained with label l (no ignoreZero, nothing untrained), every RAM of l votes at least 1 for it, so without bleaching no class scores above l relative to its number of RAMs, and with equally many RAMs per class l ties for the best score.", "quantifier": "every training history containing the image", "why_tests_cant": "All histories.", "anchors": ["src/models/wisard/wisard.cc: train, classify", "src/models/wisard/discriminator.cc: _classify", "src/models/wisard/ram.cc: train, getVote"]}
{"id": "C45", "title": "Labels are isolated", "statement": "Training or untraining with label l changes no vote, mental image or count of any other label.", "quantifier": "every state, image and pair of labels", "why_tests_cant": "All states.", "anchors": ["src/models/wisard/wisard.cc: train, leaveOneOut"]}
{"id": "C46", "title": "Wisard training order does not matter", "statement": "With fixed wiring, training the same labelled images in any order gives a model that classifies every image the same.", "quantifier": "every two orders of every training set", "why_tests_cant": "All permutations.", "anchors": ["src/models/wisard/wisard.cc: train, classify"]}
{"id": "C47", "title": "leaveOneOut undoes train and ignores unknown labels", "statement": "leaveOneOut(x,l) right after train(x,l) on a known label restores all classification results and mental images; for an unknown label it changes nothing.", "quantifier": "every state", "why_tests_cant": "All states.", "anchors": ["src/models/wisard/wisard.cc: leaveOneOut, leaveMoreOut, train"]}
{"id": "C48", "title": "classify returns one known label per image, in order", "statement": "classify returns a list of the same length as the input; its i-th element is a label that was trained (or \"\" if the model is empty) and depends only on the i-th image.", "quantifier": "every state and input list", "why_tests_cant": "All inputs.", "anchors": ["src/models/wisard/wisard.cc: _classify, __classify"]}
{"id": "C49", "title": "Batch arguments are validated before training", "statement": "train with different numbers of images and labels, or with confidence greater than the number of RAMs, throws and leaves the model unchanged.", "quantifier": "every model and batch", "why_tests_cant": "All batches.", "anchors": ["src/models/wisard/wisard.cc: train, checkInputSizes, checkConfidence", "src/common/utils.cc: calculateNumberOfRams"]}
{"id": "C50", "title": "Empty batches are harmless", "statement": "train and classify on an empty list of images do nothing and return nothing.", "quantifier": "every model", "why_tests_cant": "Undefined behaviour cannot be settled by running.", "anchors": ["src/models/wisard/wisard.cc: train", "src/wrappers/wisardwrapper.cc: _pyClassify", "src/models/cluswisard/cluswisard.cc: train", "src/wrappers/cluswisardwrapper.cc: pyClassify"]}
{"id": "C51", "title": "A failing batch keeps the images before the failure", "statement": "If image i of a batch is rejected, the model equals the one obtained by training images 0..i-1 (plus possibly an untrained or partially trained class for label i).", "quantifier": "every batch, every failure point", "why_tests_cant": "All failure points.", "anchors": ["src/models/wisard/wisard.cc: train"]}
{"id": "C52", "title": "activationDegree is a fraction of the RAMs", "statement": "The activationDegree returned by classify lies in [0,1] and is 1 exactly when all RAMs of the winning class are active.", "quantifier": "every default-wired model and image", "why_tests_cant": "All models and images.", "anchors": ["src/wrappers/wisardwrapper.cc: setClassifyOutput, _pyClassify", "src/common/utils.cc: calculateNumberOfRams"]}
{"id": "C53", "title": "classesDegrees is a distribution over the classes", "statement": "classesDegrees lists every class once in label order with non-negative degrees summing to 1, unless all scores are 0, when all degrees are 0.", "quantifier": "every model and image", "why_tests_cant": "All score tables.", "anchors": ["src/wrappers/wisardwrapper.cc: getClassesDegrees"]}
{"id": "C54", "title": "returned confidence reflects the lead over the runner-up", "statement": "The returned confidence is (best - second best)/best, in [0,1], and 0 when two classes tie for the best score.", "quantifier": "every score table", "why_tests_cant": "All score tables.", "anchors": ["src/common/bleaching.cc: getConfidence", "src/wrappers/wisardwrapper.cc: setClassifyOutput"]}
{"id": "C55", "title": "A cluster never exceeds its discriminator limit", "statement": "At any time a ClusWisard class holds at most discriminatorsLimit discriminators, and at least one once trained.", "quantifier": "every training history, any float rounding", "why_tests_cant": "All histories.", "anchors": ["src/models/cluswisard/cluster.cc: train", "src/models/cluswisard/cluswisard.cc: train"]}
{"id": "C56", "title": "No training image is dropped by a cluster", "statement": "Each successful training of an image increases the number of trainings of at least one discriminator of its cluster, by exactly one each, and afterwards some discriminator of the cluster gives a positive vote on every RAM for it (without ignoreZero).", "quantifier": "every cluster state and image, any float rounding", "why_tests_cant": "All states.", "anchors": ["src/models/cluswisard/cluster.cc: train"]}
{"id": "C57", "title": "Which discriminators learn an image", "statement": "An image is learned by exactly those discriminators whose score reaches min(1, minScore + count/threshold); if none does, by a new discriminator when the limit allows, otherwise by the last discriminator with the best score.", "quantifier": "every cluster state and image", "why_tests_cant": "All states.", "anchors": ["src/models/cluswisard/cluster.cc: train, getScore"]}
{"id": "C58", "title": "ClusWisard classify returns trained labels", "statement": "classify returns a label that was trained.", "quantifier": "every label string and history", "why_tests_cant": "All strings, in particular those containing or ending in ':'.", "anchors": ["src/models/cluswisard/cluswisard.cc: classify, train"]}
{"id": "C59", "title": "Semi-supervised training learns exactly the unlabelled images without labels", "statement": "train(images, {index: label}) trains the labelled images with their labels first and then each unlabelled image with the label the model gives it.", "quantifier": "every batch and every set of labelled indexes", "why_tests_cant": "All subsets of indexes.", "anchors": ["src/models/cluswisard/cluswisard.cc: train(images, map)"]}
{"id": "C60", "title": "Labels for indexes outside the batch are rejected", "statement": "A label map with keys outside 0..len(images)-1 makes train throw or is ignored.", "quantifier": "every batch and label map", "why_tests_cant": "Undefined behaviour depends on allocator state.", "anchors": ["src/models/cluswisard/cluswisard.cc: train(images, map), checkInputLabels, checkLabellessSize"]}
{"id": "C61", "title": "Unsupervised training accumulates", "statement": "Calling trainUnsupervised twice gives the same model as calling it once with the concatenated lists, also when supervised classes exist.", "quantifier": "every model and pair of batches", "why_tests_cant": "All batches.", "anchors": ["src/models/cluswisard/cluswisard.cc: trainUnsupervised"]}
{"id": "C62", "title": "Asking for a mental image does not change the model", "statement": "getMentalImage(label) leaves classification, json and later training unchanged.", "quantifier": "every model and label", "why_tests_cant": "All labels.", "anchors": ["src/models/cluswisard/cluswisard.cc: getMentalImage"]}
{"id": "C63", "title": "Constructor arguments are validated", "statement": "ClusWisard creation throws exactly when minScore is outside [0,1], threshold < 1 or discriminatorsLimit < 1.", "quantifier": "all numeric arguments", "why_tests_cant": "All numbers.", "anchors": ["src/models/cluswisard/cluswisard.cc: checkConfigInputs"]}
{"id": "C64", "title": "threshold bounds what a discriminator learns", "statement": "A discriminator of a cluster never learns more than threshold examples, as documented.", "quantifier": "every history", "why_tests_cant": "All histories.", "anchors": ["src/models/cluswisard/cluster.cc: train", "docs/models/cluswisard.md"]}
{"id": "C65", "title": "ClusWisard labels are isolated", "statement": "Supervised training with label l changes no discriminator of any other label.", "quantifier": "every state and label", "why_tests_cant": "All states.", "anchors": ["src/models/cluswisard/cluswisard.cc: train"]}
{"id": "C66", "title": "Synthetic images follow the mental image", "statement": "Synthesizer(m).make() returns a 0/1 list of the same length; pixel i is 1 for exactly m[i] of the max(m) equally likely random draws, so brighter pixels include darker ones' draws.", "quantifier": "every mental image with non-negative entries and positive maximum, every random draw", "why_tests_cant": "All images and draws.", "anchors": ["src/synthetic_data/synthesizers.cc: makeCube, make", "src/common/utils.cc: randint"]}
{"id": "C67", "title": "Synthesizing from a blank mental image is safe", "statement": "make() on an all-zero or empty mental image returns an all-zero image.", "quantifier": "every blank image", "why_tests_cant": "A crash (division by zero) for all of them.", "anchors": ["src/synthetic_data/synthesizers.cc: make", "src/common/utils.cc: randint"]}
{"id": "C68", "title": "KernelCanvas output shape", "statement": "transform returns numberOfKernels*bitsByKernel values, all 0 or 1, constant on each kernel's block of bits, with at least round(activationDegree*numberOfKernels) and at most that times the sequence length active kernels.", "quantifier": "every sequence of points and kernels, any float behaviour and any valid sort", "why_tests_cant": "All sequences, including NaN distances.", "anchors": ["src/binarization/kernelcanvas.cc: transform, activateKernels, setupKernelCanvas"]}
{"id": "C69", "title": "KernelCanvas activates the nearest kernels", "statement": "For each point the activated kernels are the required number of nearest ones: none that is not activated for it is strictly nearer than one that is; a kernel is active in the output iff some point activated it.", "quantifier": "every sequence and comparable distances", "why_tests_cant": "All sequences.", "anchors": ["src/binarization/kernelcanvas.cc: activateKernels, calculateDistances"]}
{"id": "C70", "title": "useDirection stays within its buffers", "statement": "transform with useDirection=true never reads or writes outside its point buffer.", "quantifier": "every dimension and sequence length", "why_tests_cant": "Memory safety for all sizes.", "anchors": ["src/binarization/kernelcanvas.cc: calculatePoint, switchIndexes, calculateDistances"]}
{"id": "C71", "title": "Points of the wrong dimension are rejected", "statement": "transform throws when some point has a dimension different from the canvas dimension.", "quantifier": "every sequence", "why_tests_cant": "Undefined behaviour on short points.", "anchors": ["src/binarization/kernelcanvas.cc: transform, checkDimension, multDimMean"]}
{"id": "C72", "title": "Negative pixel values are rejected", "statement": "An image with a negative value is rejected by train and classify, so that it never counts as, or matches, another image.", "quantifier": "every list image, every discriminator", "why_tests_cant": "Aliasing happens only for particular combinations of values, addresses and base; every combination would have to be tried.", "anchors": ["src/models/wisard/ram.cc: getIndex, checkPos"]}
{"id": "C73", "title": "Valid calls on a default-wired model always succeed", "statement": "With an address size of at least 2, no larger than the image, and a base whose power fits the address type, every sequence of train, leaveOneOut and classify calls with images of the right length and pixel values in [0,base) succeeds: nothing throws and nothing is undefined.", "quantifier": "every such model, every history of calls of any length below 2^31, every random wiring", "why_tests_cant": "The absence of failure must hold for every history and every random permutation.", "anchors": ["src/models/wisard/wisard.cc: train, classify, leaveOneOut", "src/models/wisard/discriminator.cc: train, classify", "src/models/wisard/ram.cc: getIndex"]}
{"id": "C74", "title": "Training on a DataSet equals training on its labelled images in order", "statement": "train(dataset) on a data set all of whose images are labelled has the effect of training every (image, label) pair in order; a missing label throws after the earlier images were learned.", "quantifier": "every model and data set", "why_tests_cant": "Every data set and every position of a missing label.", "anchors": ["src/models/wisard/wisard.cc: train(DataSet)", "src/data/dataset.cc: getLabel"]}
{"id": "C76", "title": "RAMDataHandle set and get agree", "statement": "After set(r, addr, v), get(r, addr) returns v, and get of every other RAM/address pair returns what it returned before.", "quantifier": "every handle, RAM index, address and value", "why_tests_cant": "aliasing of addresses (sign extension of int addresses) depends on all pairs of addresses and all contents", "anchors": ["src/models/wisard/ramdatahandle.cc:10-20 RAMDataHandle::get, set"]}
{"id": "C78", "title": "ClusWisard classify returns the class of the strongest discriminator", "statement": "classify gives an image the class of a discriminator with the most RAMs whose vote reaches the bleaching threshold; ties go to the greatest name label::j; without bleaching the threshold is 1, with bleaching and confidence 1 it is the least threshold at which no two discriminators tie for the top above 1.", "quantifier": "every model, image, label string and number of discriminators per class", "why_tests_cant": "All vote tables and all orders of names (label::10 sorts before label::2).", "anchors": ["src/models/cluswisard/cluswisard.cc: classify", "src/common/bleaching.cc: Bleaching::make, getBiggestCandidate"]}
{"id": "C75", "title": "Well-formed ClusWisard calls always succeed", "statement": "With an address size of at least 2 and at most the image length, a base whose power fits the address type, a confidence at most the number of RAMs and labels without '::' and no ':' at the end, every sequence of supervised and semi-supervised training calls with valid images succeeds, and afterwards classify of valid images succeeds: nothing throws and nothing is undefined.", "quantifier": "every such model, every history of calls, every random wiring, every floating-point rounding", "why_tests_cant": "The absence of failure must hold for every history, every random permutation and every evolution of clusters.", "anchors": ["src/models/cluswisard/cluswisard.cc: train, classify", "src/models/cluswisard/cluster.cc: train"]}
{"id": "C77", "title": "A cluster's discriminators are ordinary discriminators trained with images of the class", "statement": "Every discriminator of a class is in the state of a new Discriminator with the model's parameters trained one by one with some of the images given for this label, in their order, and at least one.", "quantifier": "every history of calls (failing ones and semi-supervised training included)", "why_tests_cant": "All histories and all evolutions of clusters.", "anchors": ["src/models/cluswisard/cluster.cc: train, makeDiscriminator", "src/models/cluswisard/cluswisard.cc: train"]}
{"id": "C79", "title": "A ClusWisard's configuration can be reused", "statement": "ClusWisard(c.jsonConfig()) is a new, untrained ClusWisard with the parameters of c: under any calls it behaves as one made by the constructor with the same arguments.", "quantifier": "every constructor arguments accepted, every history of calls on c (also failing ones), every later sequence of calls on the loaded model", "why_tests_cant": "All parameters, histories and later calls.", "anchors": ["src/models/cluswisard/cluswisard.cc: jsonConfig, getConfig, ClusWisard(std::string)"]}
{"id": "C80", "title": "Synthesizer construction randomness never shows", "statement": "The image make() returns depends only on the mental image and the random draw made by that call: two Synthesizers built from the same mental image with different random states return the same image for the same draw.", "quantifier": "every mental image, every pair of random states at construction, every draw", "why_tests_cant": "Independence from all random states.", "anchors": ["src/synthetic_data/synthesizers.cc: makeCube, make"]}
{"id": "C81", "title": "Activation degree 1 activates every kernel", "statement": "A KernelCanvas with activationDegree=1 returns all ones for every non-empty sequence of points of its dimension.", "quantifier": "every number of kernels, bits, sequence, arithmetic and sort", "why_tests_cant": "The failing numbers of kernels are those a float cannot represent (above 2^24).", "anchors": ["src/binarization/kernelcanvas.cc: setupKernelCanvas, activateKernels"]}
{"id": "C82", "title": "KernelCanvas rejects exactly the invalid parameters", "statement": "Construction throws if the number of kernels, the dimension or the bits by kernel is below 1 or the activation degree is outside [0,1], and otherwise gives a canvas with that many kernels.", "quantifier": "every combination of parameters", "why_tests_cant": "All integers and degrees.", "anchors": ["src/binarization/kernelcanvas.cc: checkInputs, setupKernelCanvas", "src/wrappers/kernelcanvaswrapper.cc"]}
{"id": "C83", "title": "ClusWisard.classify in Python returns what the options ask for", "statement": "The classes returned are those of the C++ method, one per image; without return options every element is a label, otherwise a dict with exactly the requested values; activationDegree is the fraction of active RAMs of the winning discriminator; classesDegrees has one entry for each class, summing to 1; confidence compares the winning class with the runner-up class.", "quantifier": "every history of calls, every list of images and every combination of options", "why_tests_cant": "All histories, images and evolutions of clusters.", "anchors": ["src/wrappers/cluswisardwrapper.cc: classify", "src/models/cluswisard/cluswisard.cc: classify, __classify", "src/common/bleaching.cc"]}
{"id": "C84", "title": "ClusWisard rejects inconsistent batches before training", "statement": "Supervised training with different numbers of images and labels, semi-supervised training with more labels than images, or a confidence above the number of RAMs of a discriminator, throws without changing the model; a consistent batch is not rejected.", "quantifier": "every model, every batch of images and labels", "why_tests_cant": "All models and all batches.", "anchors": ["src/models/cluswisard/cluswisard.cc: train, checkConfidence, checkInputSizes", "src/common/utils.cc"]}
{"id": "C85", "title": "classifyUnsupervised returns the number of the best discriminator", "statement": "Each image gets, in decimal, the number of a discriminator of the unsupervised cluster with the most RAMs reaching the bleaching threshold, below discriminatorsLimit; ties go to the greatest decimal string.", "quantifier": "every history, every image", "why_tests_cant": "All histories and images.", "anchors": ["src/models/cluswisard/cluswisard.cc: classifyUnsupervised", "src/models/cluswisard/cluster.cc: classify"]}
{"id": "C86", "title": "ClusWisard mental images count the learned images", "statement": "getMentalImage(label) returns one image per discriminator of the class; each value is (wires to that pixel) x (images the discriminator learned that are non-zero there); getMentalImages returns this for every class.", "quantifier": "every history with valid images for the class, every hash iteration order", "why_tests_cant": "All histories and all iteration orders.", "anchors": ["src/models/cluswisard/cluswisard.cc: getMentalImage, getMentalImages", "src/models/cluswisard/cluster.cc: getMentalImages"]}
{"id": "C87", "title": "Wisard mental images count the learned images of each class", "statement": "getMentalImages returns one image for each class; its value at a pixel is (wires of the class to it) x (trainings minus untrainings with this label of images that are non-zero there).", "quantifier": "every valid history, every hash iteration order", "why_tests_cant": "All histories and all iteration orders.", "anchors": ["src/models/wisard/wisard.cc: getMentalImages", "src/models/wisard/discriminator.cc: getMentalImage"]}
{"id": "C88", "title": "Data sets and lists of 0/1 pixels are interchangeable for Wisard", "statement": "Training a default-wired Wisard with a data set of labelled images has exactly the effect and result of training with the lists and labels (for the same random choices), and classifying them returns the same.", "quantifier": "every history of the model, every list of 0/1 images with non-empty labels", "why_tests_cant": "All histories and images.", "anchors": ["src/models/wisard/wisard.cc: train, classify", "src/data/dataset.cc", "src/data/bininput.cc"]}
{"id": "C89", "title": "A JSON text means the value it was made from", "statement": "dump writes a text exactly when every string and key is UTF-8, and throws otherwise; parse of that text gives back the same value; different values have different texts.", "quantifier": "every JSON value with 64-bit integers, map objects and floats for which the float conversion is right", "why_tests_cant": "All nestings, all strings and all numbers.", "anchors": ["src/libs/json.hpp: serializer::dump, dump_escaped, dump_integer, decode, lexer, parser", "src/models/wisard/wisard.cc: json"]}
{"id": "C90", "title": "Parsing is total and safe", "statement": "For every byte string parse ends, either with a parse error / number-range error thrown, or with a value whose strings and keys are UTF-8, whose integers have 64 bits, whose object keys are distinct, and which can be dumped and parsed again to the same value.", "quantifier": "every byte string given to a constructor that takes JSON", "why_tests_cant": "Every text, including malformed ones.", "anchors": ["src/libs/json.hpp: lexer, parser", "src/models/wisard/wisard.cc: Wisard(std::string)"]}
{"id": "C91", "title": "Saving a model as text and loading the text gives the same model", "statement": "Model(m.json()) is indistinguishable from m, for a trained Discriminator and for a Wisard (no mapping option for labels first trained after loading) whose classes have learnt and whose labels are UTF-8, inline or with separate files; with a label that is not UTF-8, json() throws; no proper beginning of the saved text is ever loaded as some model.", "quantifier": "every history of calls, every hash iteration order, every cut of the text", "why_tests_cant": "All histories and all points at which writing the text may have been interrupted.", "anchors": ["src/models/wisard/discriminator.cc: json, Discriminator(std::string)", "src/models/wisard/wisard.cc: json, Wisard(std::string)", "src/libs/json.hpp"]}
{"id": "C92", "title": "A truncated JSON text is detected", "statement": "Every proper prefix of the text of an object, array, string, boolean or null is rejected with an exception; and if two accepted texts are such that one begins with the other, they mean the same value (bare numbers excepted).", "quantifier": "every value and every cut point; every pair of texts", "why_tests_cant": "All values and all cut points.", "anchors": ["src/libs/json.hpp: serializer::dump, lexer, parser"]}
{"id": "C93", "title": "Saving a ClusWisard as text and loading the text gives the same model", "statement": "ClusWisard(m.json()) is indistinguishable from m when its labels are UTF-8, inline or with separate files; with a label that is not UTF-8, json() throws; no proper beginning of the saved text is ever loaded as some model.", "quantifier": "every history of calls, every hash iteration order, every cut of the text", "why_tests_cant": "All histories and all points at which writing the text may have been interrupted.", "anchors": ["src/models/cluswisard/cluswisard.cc: json, ClusWisard(std::string)", "src/libs/json.hpp"]}
{"id": "C94", "title": "Keyword options of the Python constructors have the values given", "statement": "Wisard, ClusWisard, Discriminator and KernelCanvas called from Python: the call is accepted exactly when every known option given has a value of its type (else the cast error is thrown), each option then has the given value or its documented default, and the order of the keyword arguments has no effect.", "quantifier": "every list of keyword arguments with distinct names and every Python value", "why_tests_cant": "All combinations and orders of options.", "anchors": ["src/wrappers/wisardwrapper.cc: WisardWrapper", "src/wrappers/cluswisardwrapper.cc: ClusWisardWrapper", "src/wrappers/discriminatorwrapper.cc: DiscriminatorWrapper", "src/wrappers/kernelcanvaswrapper.cc: KernelCanvasWrapper"]}
{"id": "C95", "title": "No keyword option is silently ignored", "statement": "A keyword argument that a Python constructor does not understand is reported, and every option the documentation lists is used.", "quantifier": "every keyword argument", "why_tests_cant": "All names, including misspelt ones.", "anchors": ["src/wrappers/wisardwrapper.cc: WisardWrapper", "src/wrappers/cluswisardwrapper.cc: ClusWisardWrapper", "docs/models/cluswisard.md"]}
{"id": "C96", "title": "getsizeof counts every learnt pattern once", "statement": "After any trainings and untrainings of valid images, getsizeof of a Discriminator or Wisard is the fixed size of its objects, labels, indexes and wires plus 12 bytes for each RAM and each different pattern this RAM has seen in training; in any state training never decreases it, adds at most 12 bytes per RAM to a known class, and leaveOneOut does not change it.", "quantifier": "every history of trainings and untrainings, every wiring, every state for the growth part", "why_tests_cant": "All histories.", "anchors": ["src/models/wisard/ram.cc: getsizeof", "src/models/wisard/discriminator.cc: getsizeof", "src/models/wisard/wisard.cc: getsizeof"]}
{"id": "C97", "title": "getsizeof of a ClusWisard", "statement": "After any calls, getsizeof of a ClusWisard is the size of the object and of the unsupervised cluster plus, for every class, its label and all its discriminators; supervised and semi-supervised training never decreases it; it has a result exactly when no discriminator pointer is null.", "quantifier": "every history of calls, failing ones included", "why_tests_cant": "All histories.", "anchors": ["src/models/cluswisard/cluster.cc: getsizeof", "src/models/cluswisard/cluswisard.cc: getsizeof"]}
{"id": "C98", "title": "The constructors read exactly RFC 8259", "statement": "A text given to a constructor is accepted as JSON exactly if it is a JSON text of RFC 8259 (with an optional byte order mark before it, and anything at all after a NUL byte), and it is read as the value the grammar gives it: white space, order of members, escapes (including surrogate pairs) make no difference, of repeated keys the first counts, integers of up to 64 bits are exact. Every other text is refused with an exception.", "quantifier": "every text (byte string), every value", "why_tests_cant": "Infinitely many texts; both directions of the equivalence are needed.", "anchors": ["src/libs/json.hpp: parse", "src/models/wisard/wisard.cc: Wisard(std::string)"]}
{"id": "C99", "title": "Saved models are JSON and survive reformatting", "statement": "json() of a trained Discriminator or of a Wisard with UTF-8 labels returns a JSON text of RFC 8259, and every JSON text for the same value (pretty printed, members reordered, characters escaped) is loaded to an indistinguishable model.", "quantifier": "every history, every reformatting of the text", "why_tests_cant": "All histories and all texts for a value.", "anchors": ["src/models/wisard/discriminator.cc: json", "src/models/wisard/wisard.cc: json", "src/libs/json.hpp: dump, parse"]}
{"id": "C100", "title": "Saved ClusWisards are JSON and survive reformatting", "statement": "json() of a ClusWisard with UTF-8 labels returns a JSON text of RFC 8259, and every JSON text for the same value is loaded to an indistinguishable ClusWisard.", "quantifier": "every history, every reformatting of the text", "why_tests_cant": "All histories and all texts for a value.", "anchors": ["src/models/cluswisard/cluswisard.cc: json, ClusWisard(std::string)", "src/libs/json.hpp: dump, parse"]}
{"id": "C101", "title": "A cut image text is refused", "statement": "The text data() returns for an image, cut off before its end, is refused by BinInput(text) with an exception instead of being read as another image.", "quantifier": "every image, every cut", "why_tests_cant": "Every image and every length of the cut text.", "anchors": ["src/data/bininput.cc: data, BinInput(std::string)", "src/common/utils.cc: Base64::decode"]}
{"id": "C102", "title": "A data set file cut off by a crash is refused or loads the complete records", "statement": "If writing a data set file stops early (crash, full disk), DataSet(file) either throws or loads exactly the records written completely.", "quantifier": "every data set, every crash point (byte of the file)", "why_tests_cant": "Every crash point of every data set.", "anchors": ["src/data/dataset.cc: save, load, DataSet(std::string)", "src/data/bininput.cc: BinInput(std::string)"]}
{"id": "C103", "title": "A cut RAM file of a saved discriminator is detected", "statement": "If the .wdpkg file that json(true, path) writes is cut off, loading the discriminator throws instead of giving a discriminator that answers differently.", "quantifier": "every discriminator and history, every crash point (byte of the file)", "why_tests_cant": "Every crash point of every saved discriminator.", "anchors": ["src/models/wisard/discriminator.cc: json, setRAMsData, getRAMsData", "src/models/wisard/ramdatahandle.cc: dataToRam"]}
{"id": "C104", "title": "A missing file is detected", "statement": "Loading from a file that does not exist throws: DataSet(file), RAMDataHandle(file), and Discriminator(json) whose RAM file is gone.", "quantifier": "every file system, every name, every history", "why_tests_cant": "Every history of the saved discriminator and every state of the file system.", "anchors": ["src/data/dataset.cc: DataSet(std::string)", "src/models/wisard/ramdatahandle.cc: RAMDataHandle(std::string)", "src/models/wisard/discriminator.cc: setRAMsData"]}
{"id": "C105", "title": "RAMDataHandle survives save and load through a new file", "statement": "save(prefix) of a RAMDataHandle with RAMs 0..n-1, each with an entry, into a new file leaves the handle and all other files as they are, and RAMDataHandle(prefix + '.wdpkg') compares equal to it. Reading a file is the same as reading its contents as a text.", "quantifier": "every handle, every file system without that file", "why_tests_cant": "Every handle content and iteration order.", "anchors": ["src/models/wisard/ramdatahandle.cc: save, RAMDataHandle(std::string), compare, data"]}
{"id": "C106", "title": "A score counts the RAMs that know the image's pattern", "statement": "After any training, the score of a class for an image is the number of its RAMs whose pattern of the image occurred in at least b of the images trained with this label, with one b for all classes (b = 1 without bleaching).", "quantifier": "every training history of valid images, every image, all options", "why_tests_cant": "All histories and images; the meaning of a score in terms of the training images only.", "anchors": ["src/models/wisard/wisard.cc: train, classify", "src/common/bleaching.cc: make", "src/models/wisard/ram.cc: train, getVote"]}
{"id": "C107", "title": "Without bleaching only the set of training images matters", "statement": "With bleachingActivated=False, training images in another order or several times changes no score and no label.", "quantifier": "every two training histories with the same set of labelled images", "why_tests_cant": "All pairs of histories.", "anchors": ["src/models/wisard/wisard.cc: train, classify", "src/common/bleaching.cc: make"]}
{"id": "C108", "title": "Without bleaching, more training never lowers a score", "statement": "With bleachingActivated=False, training further images never lowers the score of any class for any image, and leaves the scores of the classes without new images unchanged.", "quantifier": "every training history, every continuation, every image", "why_tests_cant": "All histories and continuations.", "anchors": ["src/models/wisard/wisard.cc: train, classify"]}
{"id": "C109", "title": "A new class only takes images over", "statement": "With bleachingActivated=False, after training only new labels the answer for an image is what it was or one of the new labels.", "quantifier": "every training history, every continuation with new labels, every image", "why_tests_cant": "All histories and continuations.", "anchors": ["src/models/wisard/wisard.cc: train, classify", "src/common/bleaching.cc: getBiggestCandidate"]}
{"id": "C110", "title": "Repeating the whole training set changes nothing", "statement": "Training a Wisard again, any number of times and in any order, with all images it was trained with changes no score and no label, with or without bleaching.", "quantifier": "every training history, every number of repetitions, all options", "why_tests_cant": "All histories; the bleaching threshold changes although the result does not.", "anchors": ["src/models/wisard/wisard.cc: train, classify", "src/common/bleaching.cc: make"]}
{"id": "C111", "title": "Models with a given wiring are reproducible", "statement": "If indexes or mapping determine the wiring, two runs of the same calls (also failing ones) return the same results and give models that answer every query alike, whatever the random numbers are.", "quantifier": "every history, every two sequences of random numbers", "why_tests_cant": "All random choices.", "anchors": ["src/models/wisard/wisard.cc: makeDiscriminator, train", "src/models/wisard/discriminator.cc: Discriminator"]}
{"id": "C112", "title": "Labels are opaque names", "statement": "Renaming all labels by a function that keeps their order renames the labels in all results (scores, returned labels, mental images) and changes nothing else.", "quantifier": "every history (also failing calls), every order-preserving renaming, all options", "why_tests_cant": "All histories and renamings.", "anchors": ["src/models/wisard/wisard.cc: train, leaveOneOut, classify, getMentalImages", "src/common/bleaching.cc: make, getBiggestCandidate"]}
{"id": "C113", "title": "Names only decide ties", "statement": "With any injective renaming of the labels, scores stay the same if bleaching is off or the confidence is at most 1, and a class that has the highest score alone still wins.", "quantifier": "every history, every injective renaming, every image", "why_tests_cant": "All histories and renamings.", "anchors": ["src/models/wisard/wisard.cc: train, leaveOneOut, classify", "src/common/bleaching.cc: isThereAmbiguity, getBiggestCandidate"]}
{"id": "C114", "title": "What a JSON document means", "statement": "The constructors that take a JSON document (Discriminator, Wisard, ClusWisard) give exactly the model the document describes: every setting from its member or the documented default, every class/cluster by name, and for every RAM its addresses and the contents encoded in its part of data. Nothing else is accepted, and a document that is not an object is refused.", "quantifier": "every document and every model, every file system", "why_tests_cant": "All documents; an exact description in both directions.", "anchors": ["src/models/wisard/discriminator.cc: Discriminator(nl::json), setRAMsData", "src/models/wisard/wisard.cc: Wisard(std::string)", "src/models/cluswisard/cluswisard.cc: ClusWisard(std::string)", "src/models/cluswisard/cluster.cc: Cluster(nl::json)"]}
{"id": "C115", "title": "Only the named members of a document matter", "statement": "Adding, removing or changing members the library does not know, their order, the layout of the text and the settings repeated inside classes or clusters change nothing in the loaded model; loading also fails for the same documents.", "quantifier": "every two documents that agree on the meaningful members", "why_tests_cant": "All documents.", "anchors": ["src/models/wisard/discriminator.cc: Discriminator(nl::json)", "src/models/wisard/wisard.cc: Wisard(std::string)", "src/models/cluswisard/cluswisard.cc: ClusWisard(std::string)"]}
{"id": "C116", "title": "Loading and using a document is memory-safe", "statement": "Loading any JSON document gives a model or an exception, and whatever was loaded can be classified, trained and inspected without undefined behaviour.", "quantifier": "every document, every file system, every image", "why_tests_cant": "All documents, also malicious ones.", "anchors": ["src/models/wisard/discriminator.cc: Discriminator(nl::json), setRAMsData", "src/models/wisard/ram.cc: RAM(nl::json), getIndex", "src/models/wisard/wisard.cc: Wisard(std::string), classify", "src/models/cluswisard/cluswisard.cc: ClusWisard(std::string)", "src/common/utils.cc: Base64::decode", "src/common/bleaching.cc: makeConfidenceless"]}
{"id": "C117", "title": "Data files have well-formed names", "statement": "json(huge=true, path) writes to exactly one file per discriminator, named path followed by ten letters or digits and .wdpkg, and leaves every other file alone.", "quantifier": "every generator state, path, file system and discriminator", "why_tests_cant": "Names are random; a test sees a few of them.", "anchors": ["src/common/utils.cc: getRandomString", "src/models/wisard/discriminator.cc: getRAMsData, json"]}
{"id": "C118", "title": "Models are wired independently at random", "statement": "Each model created with default wiring gets its own random wiring: a valid one, independent of the models created before, and every wiring can occur.", "quantifier": "every generator, clock, process history and size", "why_tests_cant": "Needs all generator states and clocks; tests run within one second or on one seed.", "anchors": ["src/common/utils.cc: randint", "src/models/wisard/discriminator.cc: Discriminator(int,int,nl::json), setRAMShuffle", "src/models/wisard/wisard.cc: Wisard(int,nl::json), makeDiscriminator", "src/binarization/kernelcanvas.cc: setupKernelCanvas"]}
{"id": "C119", "title": "Discriminators saved under one path do not disturb each other", "statement": "Two discriminators saved with json(huge=true, path) under the same path can both be loaded again.", "quantifier": "every generator, clock, process history, training", "why_tests_cant": "Depends on the generator state at the time of saving.", "anchors": ["src/common/utils.cc: getRandomString, randint", "src/models/wisard/discriminator.cc: getRAMsData, setRAMsData"]}
{"id": "C120", "title": "Synthetic images are drawn anew", "statement": "Each call of Synthesizer.make draws a new image from the mental image.", "quantifier": "every generator, clock, mental image, process history", "why_tests_cant": "Depends on the clock and on all generator states.", "anchors": ["src/synthetic_data/synthesizers.cc: Synthesizer, make", "src/common/utils.cc: randint"]}
{"id": "C121", "title": "A RAM with random addresses reads its whole address", "statement": "RAM(addressSize, entrySize) reads addressSize randomly chosen positions of the image, all inside it.", "quantifier": "every generator, clock, size, training", "why_tests_cant": "Depends on the generator and clock.", "anchors": ["src/models/wisard/ram.cc: RAM(int,int,bool,int), generateRandomAddresses", "src/common/utils.cc: randint"]}
{"id": "C122", "title": "jsonConfig() returns indented JSON of the configuration", "statement": "jsonConfig() returns an indented JSON text of the configuration of the model; every JSON text of the same value reads the same; loading the text of a ClusWisard gives a new model with the same options, loading the text of a Discriminator or of a Wisard with a class throws; labels that are not UTF-8 make the call throw.", "quantifier": "every model, history, label", "why_tests_cant": "All nestings, strings and numbers of the printer, all histories.", "anchors": ["src/models/wisard/discriminator.cc: jsonConfig", "src/models/wisard/wisard.cc: jsonConfig", "src/models/cluswisard/cluswisard.cc: jsonConfig", "src/libs/json.hpp: dump"]}
{"id": "C123", "title": "Loading reads only the files the document names", "statement": "The result of loading a saved model depends only on the files named by its data members; damage or loss of the file of one class leaves the other classes as they were.", "quantifier": "every document, pair of file systems and class", "why_tests_cant": "Ranges over all states of the file system.", "anchors": ["src/models/wisard/discriminator.cc: Discriminator(std::string), setRAMsData", "src/models/wisard/wisard.cc: Wisard(std::string)", "src/models/cluswisard/cluster.cc: Cluster(json)"]}
{"id": "C124", "title": "ClusWisard objects do not share state", "statement": "Several ClusWisards alive in one process behave under any interleaving of calls as if each was alone, and no pointer to a discriminator ever dangles.", "quantifier": "every interleaving of constructions, loads, calls and destructions of any number of models", "why_tests_cant": "All interleavings; aliasing is invisible to tests of one object.", "anchors": ["src/models/cluswisard/cluster.cc: Cluster, discriminators, ~Cluster", "src/models/cluswisard/cluswisard.cc: ClusWisard, train, trainUnsupervised, ~ClusWisard"]}
{"id": "C125", "title": "A copy of a ClusWisard is independent", "statement": "After copying a ClusWisard in C++, calls on the copy do not change the original.", "quantifier": "every process history with copies", "why_tests_cant": "All histories; aliasing.", "anchors": ["src/models/cluswisard/cluster.cc: class Cluster (implicit copy)", "src/models/cluswisard/cluswisard.cc: class ClusWisard (implicit copy)"]}
{"id": "C126", "title": "Destroying a ClusWisard gives its memory back", "statement": "When a ClusWisard is destroyed its discriminators are freed, and never while another model uses them; repeated calls do not leak.", "quantifier": "every process history", "why_tests_cant": "Memory growth over unbounded histories.", "anchors": ["src/models/cluswisard/cluster.cc: ~Cluster", "src/models/cluswisard/cluswisard.cc: ~ClusWisard, trainUnsupervised"]}
{"id": "C127", "title": "verbose only prints", "statement": "The option verbose changes no result and no state. With it off nothing is printed; with it on there is one progress message per image up to and including the one at which the call fails, and the line is ended when the call succeeds (train of a DataSet never ends its line, trainUnsupervised prints nothing).", "quantifier": "every model, batch and point of failure", "why_tests_cant": "All failure points of all batches.", "anchors": ["src/models/wisard/wisard.cc: train, _classify, leaveMoreOut", "src/models/cluswisard/cluswisard.cc: train, classify, classifyUnsupervised", "src/wrappers/wisardwrapper.cc: _pyClassify", "src/wrappers/cluswisardwrapper.cc: pyClassify"]}
{"id": "C128", "title": "Returned degrees are correctly rounded", "statement": "The activationDegree, confidence and classesDegrees returned to Python are the float numbers nearest to the exact fractions; degrees lie between 0 and 1, are ordered as the scores, sum up to 1 within 2^-25 per class, and the activation degree is 1 exactly if every RAM fires.", "quantifier": "every table of scores and every model with at most 2^24 RAMs; bounds and order for every table", "why_tests_cant": "Rounding errors depend on all numerators and denominators.", "anchors": ["src/wrappers/wisardwrapper.cc: setClassifyOutput, getClassesDegrees, _pyClassify", "src/wrappers/cluswisardwrapper.cc: pyClassify, getClassesDegrees", "src/common/bleaching.cc: getConfidence"]}
{"id": "C129", "title": "KernelCanvas in IEEE arithmetic", "statement": "The coordinates of the kernels are numbers between -1 and 1; for every sequence of points, of any doubles including infinities and NaN, transform succeeds and activates the nearest kernels.", "quantifier": "every clock and state of the C generator, every sequence of doubles, every valid sort, up to 2^24 kernels", "why_tests_cant": "All doubles.", "anchors": ["src/binarization/kernelcanvas.cc: setupKernelCanvas, transform", "src/common/utils.cc: randdouble"]}
{"id": "C130", "title": "A constant coordinate does not spoil transform", "statement": "A coordinate with the same value in all points of a sequence (or a sequence of a single point) leaves the output of transform to the other coordinates.", "quantifier": "every pair of sequences of doubles", "why_tests_cant": "The outcome looks like any other canvas; that it is independent of the data needs all pairs of sequences.", "anchors": ["src/binarization/kernelcanvas.cc: multDimStd, calculatePoint, activateKernels"]}
{"id": "C131", "title": "Float arguments that are not numbers are rejected", "statement": "The constructors of ClusWisard and KernelCanvas throw for a minScore or activationDegree that is not a number between 0 and 1, NaN and infinities included.", "quantifier": "every float", "why_tests_cant": "NaN passes both comparisons; the consequences range over all trainings.", "anchors": ["src/models/cluswisard/cluswisard.cc: checkConfigInputs", "src/models/cluswisard/cluster.cc: train", "src/binarization/kernelcanvas.cc: checkInputs, setupKernelCanvas"]}
{"id": "C132", "title": "C++ and Python constructors agree", "statement": "A Wisard, ClusWisard or Discriminator constructed from C++ with a JSON value of options is the one Python constructs with the same options as keyword arguments; options that are absent (or null) have the same defaults.", "quantifier": "every set of options, every address size, entry size and other argument", "why_tests_cant": "Every combination of options and values.", "anchors": ["src/models/wisard/wisard.cc: Wisard", "src/models/cluswisard/cluswisard.cc: ClusWisard", "src/models/wisard/discriminator.cc: Discriminator", "src/wrappers/"]}
{"id": "C133", "title": "C++ and Python constructors of KernelCanvas agree", "statement": "A KernelCanvas constructed from C++ with a JSON value of options is the one Python constructs with the same options as keyword arguments.", "quantifier": "every dimension, number of kernels and set of options", "why_tests_cant": "An uninitialised member may hold the expected value by chance.", "anchors": ["src/binarization/kernelcanvas.cc: KernelCanvas, setupKernelCanvas"]}
{"id": "C134", "title": "Binary bleaching", "statement": "BBleaching::make returns, for every table of votes, the number of RAMs of every class that learnt the pattern at least as often as some threshold of at least 1, in a bounded number of rounds.", "quantifier": "every table of votes, with and without bleaching", "why_tests_cant": "Termination and the threshold for all tables.", "anchors": ["src/common/bleaching.cc: BBleaching"]}
{"id": "C135", "title": "Questions from several threads", "statement": "Any number of C++ threads may classify and ask for mental images at the same time, on the same discriminators and Wisards, and, where operator[] of std::map only searches when the key exists, classify with the same ClusWisards: there is no data race, no model changes, every call returns what it returns alone, and all threads can finish.", "quantifier": "every number of threads, every list of questions per thread, every state of the models, every interleaving of the accesses to memory", "why_tests_cant": "Races show up in few schedules and depend on timing.", "anchors": ["src/models/wisard/wisard.cc: classify, getMentalImages", "src/models/wisard/discriminator.cc: classify, getMentalImage", "src/models/cluswisard/cluswisard.cc: classify, classifyUnsupervised", "src/models/wisard/ram.cc: getVote"]}
{"id": "C136", "title": "Calls that affect each other need synchronisation", "statement": "There is no synchronisation inside the library: whenever one call changes the answer of another, or changes anything and is made twice, making both at the same time is a data race; and of two equal trainings made at the same time one can be lost although both report success.", "quantifier": "every two calls, every state of the models", "why_tests_cant": "A lost update needs one particular interleaving.", "anchors": ["src/models/wisard/wisard.cc: train", "src/models/wisard/discriminator.cc: train", "src/models/wisard/ram.cc: train", "src/models/cluswisard/cluswisard.cc: getMentalImage"]}
{"id": "C137", "title": "Threads with models of their own do not disturb each other", "statement": "Threads that use different models have no data race, get the replies they get alone, and leave the models as if they had run one after the other.", "quantifier": "every number of threads, every list of calls per thread, every state of the models, every interleaving", "why_tests_cant": "Races show up in few schedules.", "anchors": ["src/models/wisard/wisard.cc: Wisard, train, makeDiscriminator", "src/common/utils.cc: randint", "src/models/wisard/discriminator.cc: setRAMShuffle", "src/models/cluswisard/cluswisard.cc: ClusWisard, train, trainUnsupervised"]}
{"id": "C138", "title": "Classes of one Wisard can be trained in parallel", "statement": "Threads that train different existing classes of one Wisard at the same time have no data race and leave the Wisard as if they had trained one after the other.", "quantifier": "every number of threads, every list of images per thread, every Wisard, every interleaving", "why_tests_cant": "Whether operator[] of a map is a write depends on the library.", "anchors": ["src/models/wisard/wisard.cc: train", "src/models/wisard/discriminator.cc: train"]}
{"id": "C139", "title": "A discriminator in any state", "statement": "Whatever a discriminator holds, for instance after loading a document written by hand: it votes what its document contains, and each further train and untrain changes its vote for an image on a RAM by one exactly if the two images have the same number there (the images read as digits of the base on the wires, the first wire least significant); with pixels below the base the same number means the same pixels. Training fails only for a wrong size, a wire outside the image or an overflow.", "quantifier": "every document, every state of a discriminator, every sequence of train and untrain, every image", "why_tests_cant": "The contents, wires and counters of a loaded document are arbitrary.", "anchors": ["src/models/wisard/discriminator.cc: Discriminator(json), train, untrain, classify", "src/models/wisard/ram.cc: RAM(json), train, untrain, getVote"]}
{"id": "C140", "title": "A Wisard in any state", "statement": "The same for a Wisard: every class of a loaded Wisard votes what its part of the document contains, with the options of the Wisard; calls for a class change its votes as in C139, leave those of the other classes alone, and a class that does not exist yet starts from nothing.", "quantifier": "every document, every state of a Wisard, every sequence of calls, every image", "why_tests_cant": "The state a document describes need not be reachable by training.", "anchors": ["src/models/wisard/wisard.cc: Wisard(json), train, untrain, leaveOneOut, leaveMoreOut, classify", "src/models/wisard/discriminator.cc: Discriminator(json)"]}
{"id": "C141", "title": "A ClusWisard in any state", "statement": "The same for a ClusWisard: the discriminators of a loaded class vote what the document contains, and training an image changes the discriminators of its class as documented: those of sufficient score learn it, else a new one if there is room, else the last one of best score. Nothing is learnt if all scores are negative, which needs negative contents; a threshold of 0 (only in a document) means that a trained discriminator has to reach the score 1 and an untrained one never learns by its score.", "quantifier": "every document, every state of a cluster including threshold 0, every image, every rounding", "why_tests_cant": "The state a document describes need not be reachable by training.", "anchors": ["src/models/cluswisard/cluster.cc: Cluster(json), train, getScore", "src/models/cluswisard/cluswisard.cc: ClusWisard(json), train"]}
{"id": "C142", "title": "The mental image of a discriminator in any state", "statement": "Whatever a discriminator holds, its mental image has one number per pixel: the sum, over the wires that read the pixel, of the contents stored at numbers whose digit of that wire is positive. It is returned when the bases are at least 1, the wires are inside the image, the contents are not negative and the sums fit an int; for a loaded discriminator the contents are those of the document.", "quantifier": "every state of a discriminator, every document, every iteration order of the RAMs", "why_tests_cant": "The contents of a loaded document are arbitrary: digits, bases and wires need not come from training.", "anchors": ["src/models/wisard/discriminator.cc: getMentalImage", "src/models/wisard/ram.cc: getMentalImage, convertToBase"]}
{"id": "C143", "title": "A save that could not be written is reported", "statement": "If the data file of json(huge=true, path) or of DataSet.save / RAMDataHandle.save cannot be opened or written, the call fails. (False of the code: the streams are never checked.)", "quantifier": "every disk (which opens fail, how many bytes each file takes), every model, every path", "why_tests_cant": "A failing disk can stop any write at any byte.", "anchors": ["src/models/wisard/discriminator.cc: getRAMsData", "src/models/wisard/ramdatahandle.cc: save", "src/data/dataset.cc: save", "src/models/wisard/wisard.cc: json", "src/models/cluswisard/cluswisard.cc: json"]}
{"id": "C144", "title": "An interrupted save harms nothing that was saved before", "statement": "Saving makes one write per discriminator, to the files named path + class + __ (+ number + __) + random string + .wdpkg. Whatever a failing disk or a crash at any byte leaves of it, all other files are untouched, files that existed keep their contents as a beginning, and every document that names none of these files is loaded exactly as before.", "quantifier": "every model, every disk, every crash point, every earlier document", "why_tests_cant": "The crash may come at any byte of any file.", "anchors": ["src/models/wisard/discriminator.cc: getRAMsData, getJSON, json", "src/models/wisard/wisard.cc: json, getClassesJSON", "src/models/cluswisard/cluswisard.cc: json, getClustersJson", "src/models/cluswisard/cluster.cc: getJson"]}
{"id": "C145", "title": "A Python call reaches the library with the values given, or fails without effect", "statement": "Every method and constructor called from Python runs the C++ function meant, with exactly the values given: integers (and True/False) within the range of the parameter and never truncated, lists and tuples element by element, str as UTF-8, bytes as they are, dicts entry by entry; a call whose arguments stand for no such values (a float as a pixel, an integer out of range, a number as a label, a wrong number of arguments, a keyword argument to a constructor from text) raises an exception and runs nothing.", "quantifier": "every argument list of every method and constructor, every Python value", "why_tests_cant": "There are infinitely many Python values, and overload resolution tries several signatures in order.", "anchors": ["src/wisard_bind.cc: PYBIND11_MODULE", "src/wrappers/wisardwrapper.cc", "src/wrappers/cluswisardwrapper.cc", "src/wrappers/discriminatorwrapper.cc"]}
{"id": "C146", "title": "Discriminator.train accepts what C++ accepts", "statement": "From Python a Discriminator can be trained with a list of images of any length and with BinInput, and classify BinInput, with the effect of the C++ functions. (False: [] is taken for an image without pixels, and BinInput has __getitem__ without __len__, so that the overload for lists, which is tried first, raises if such objects count as sequences.)", "quantifier": "every discriminator, every list of images, every BinInput", "why_tests_cant": "Overload resolution depends on the contents of the argument.", "anchors": ["src/wisard_bind.cc: Discriminator train, classify, BinInput __getitem__"]}
{"id": "C147", "title": "Labels come back as given", "statement": "If the labels of all classes were given as str, every label in the result of classify, also inside classesDegrees, arrives in Python as the str that was given; training calls create classes only for the labels given. A label given as bytes that is not UTF-8 makes classify raise when it has to return it.", "quantifier": "every Wisard, every result, every str", "why_tests_cant": "Every string of code points has to survive the encoding.", "anchors": ["src/wisard_bind.cc: Wisard train, classify", "src/wrappers/wisardwrapper.cc: setClassifyOutput, getClassesDegrees"]}
{"id": "C148", "title": "Every double is written", "statement": "json() and jsonConfig() write every finite floating point number: no assertion of the conversion fails and its table is never read outside its bounds; the text is a floating point number of JSON of at most 25 characters (the buffer has 64), denotes a number of at most 17 significant digits, and that double is strictly nearer to it than every other double. Different doubles get different texts.", "quantifier": "every finite double (all 2^64 bit patterns that are finite; the sign of zero excepted)", "why_tests_cant": "2^64 inputs; the conversion (Grisu2) works with 64-bit approximations of powers of ten whose error bounds decide correctness", "anchors": ["src/libs/json.hpp: to_chars, grisu2, grisu2_digit_gen, grisu2_round, diyfp, compute_boundaries, get_cached_power_for_binary_exponent, format_buffer, append_exponent"]}
{"id": "C149", "title": "A double that is saved is loaded as the same double", "statement": "With every strtod that gives the only nearest double, a finite number that json() writes is read back as exactly that number; hence saved discriminators, Wisards and ClusWisards (with any minScore the constructor accepts) are loaded to indistinguishable ones with the library's own number conversions.", "quantifier": "every finite double, every correctly rounding strtod, every history of the saved model", "why_tests_cant": "round trip must hold for all doubles", "anchors": ["src/libs/json.hpp: to_chars, scan_number, strtof", "src/models/cluswisard/cluswisard.cc: json, getConfig"]}
{"id": "C150", "title": "A Python program is a history of trainings", "statement": "Whatever calls of train, leaveOneOut and leaveMoreOut a Python program makes on a Wisard, with whatever arguments and going on after exceptions, the final object is the one obtained by performing a list of single trainings and removals: a call that raises TypeError contributes nothing, a call that returns contributes everything it asks for in order, a call that raises another exception contributes the first few things it asks for.", "quantifier": "all Wisards, all sequences of calls with all Python arguments, all random choices", "why_tests_cant": "the sequences of calls and of Python values are unbounded", "anchors": ["src/wisard_bind.cc: py::class_<Wisard>", "src/models/wisard/wisard.cc: train, leaveOneOut, leaveMoreOut"]}
{"id": "C151", "title": "A correct Python program never fails and what it saves can be loaded", "statement": "w = Wisard(addressSize, **options) without mapping and indexes, followed by any calls of train, leaveOneOut and leaveMoreOut with images of one size with values below base and labels that are str: every call returns, classify of any non-empty list of such images returns one result per image whose labels are str, json() returns a str, and Wisard(that str) cannot be told from w by any further calls.", "quantifier": "all options, sizes, programs of correct calls, random choices and hash table orders", "why_tests_cant": "programs, images and random choices are unbounded", "anchors": ["src/wisard_bind.cc: py::class_<Wisard>", "src/models/wisard/wisard.cc", "src/wrappers/wisardwrapper.cc"]}
{"id": "C152", "title": "A Python program on a ClusWisard performs exactly what its calls ask for", "statement": "Whatever calls of train, trainUnsupervised and getMentalImage a Python program makes on a ClusWisard, with whatever arguments and going on after exceptions: each call asks for exactly one C++ call, determined by the types of its arguments alone, or raises TypeError and changes nothing; the final object and the replies are those of performing what was asked for in order.", "quantifier": "all ClusWisards, all sequences of calls with all Python arguments, all random choices", "why_tests_cant": "the sequences of calls and of Python values are unbounded", "anchors": ["src/wisard_bind.cc: py::class_<ClusWisardWrapper>", "src/models/cluswisard/cluswisard.cc: train, trainUnsupervised, getMentalImage"]}
{"id": "C153", "title": "Valid trainings of all three kinds succeed", "statement": "With admissible parameters every sequence of well-formed supervised, semi-supervised and unsupervised training calls succeeds, provided that unsupervised training (if any) starts before the supervised one; then classify succeeds on all valid images, and so does classifyUnsupervised after unsupervised training.", "quantifier": "all parameters, sequences of well-formed calls, images, labels without '::', random choices and roundings", "why_tests_cant": "the sequences and the random choices are unbounded", "anchors": ["src/models/cluswisard/cluswisard.cc: train, trainUnsupervised, classify, classifyUnsupervised", "src/models/cluswisard/cluster.cc: train"]}
{"id": "C154", "title": "A correct Python program on a ClusWisard never fails and what it saves can be loaded", "statement": "w = ClusWisard(addressSize, minScore, threshold, discriminatorsLimit, **options), followed by any correct training calls of the three kinds with str labels (without '::' and not ending in ':'): every call returns, classify returns one result per image whose labels are labels that were given, as str, classifyUnsupervised returns str, json() returns a str and ClusWisard(that str) cannot be told from w by training and queries.", "quantifier": "all options, sizes, programs of correct calls (unsupervised ones first and with base 2), random choices, roundings and hash table orders", "why_tests_cant": "programs, images and random choices are unbounded", "anchors": ["src/wisard_bind.cc: py::class_<ClusWisardWrapper>", "src/models/cluswisard/cluswisard.cc", "src/wrappers/cluswisardwrapper.cc"]}
{"id": "C155", "title": "Iterating over a BinInput from Python", "statement": "Iterating over a BinInput (list(b), for x in b) yields its bits in order and ends after the last one.", "quantifier": "every BinInput built by the API", "why_tests_cant": "the sizes are unbounded, and whether the loop ends depends on which Python exception an internal error becomes", "anchors": ["src/wisard_bind.cc: __getitem__", "src/data/bininput.cc: get", "src/common/exceptions.cc"]}
{"id": "C156", "title": "Indexes out of range are reported to Python", "statement": "An index outside a BinInput or a DataSet raises a Python exception and changes nothing, for get, [], set, DataSet.get and DataSet.getLabel.", "quantifier": "every object and every Python integer", "why_tests_cant": "all integers, also those that do not fit the C++ index type", "anchors": ["src/wisard_bind.cc: py::class_<BinInput>, py::class_<DataSet>", "src/data/dataset.cc: get, getLabel", "src/data/bininput.cc: get, set"]}
{"id": "C157", "title": "A data set built in Python", "statement": "After any calls of DataSet.add from Python the data set holds exactly the entries asked for by the calls that returned, in order; every other call raised TypeError and left no trace. A data set filled with 0/1 images and non-empty str labels, saved under a new name and loaded again, answers size, get and getLabel as before.", "quantifier": "all sequences of calls with all Python arguments; all good programs, file systems and names", "why_tests_cant": "the sequences of calls and of Python values are unbounded", "anchors": ["src/wisard_bind.cc: py::class_<DataSet>", "src/data/dataset.cc: add, save, DataSet(std::string)"]}
{"id": "C158", "title": "Python programs on a Discriminator", "statement": "Whatever calls of train a Python program makes on a Discriminator, each call trains all images it asks for (if it returns), none (TypeError, exactly if the arguments are no image or images) or the first few. A correct program (options usable, images of the right size and values) never fails; classify returns for each RAM the number of trained images that agree with the image there; json() is a str from which an indistinguishable Discriminator is made.", "quantifier": "all sequences of calls with all Python arguments, all options without mapping and indexes, all random wirings", "why_tests_cant": "the sequences of calls, images and Python values are unbounded", "anchors": ["src/wisard_bind.cc: py::class_<DiscriminatorWrapper>", "src/wrappers/discriminatorwrapper.cc", "src/models/wisard/discriminator.cc: train, classify, json"]}
{"id": "C159", "title": "Results that hold text arrive in Python", "statement": "BinInput.data(), RAMDataHandle.data(), jsonConfig() and the keys of getMentalImages() arrive as str: BinInput(b.data()) is b, RAMDataHandle(h.data()) compares equal to h, ClusWisard(w.jsonConfig()) is a new ClusWisard with the same parameters, the keys are the labels. A label that is not UTF-8 raises UnicodeDecodeError, and only such a label does.", "quantifier": "every object, every label, every hash iteration order", "why_tests_cant": "all texts and byte strings", "anchors": ["src/wisard_bind.cc: data, jsonConfig, getMentalImages, getLabel", "src/common/utils.cc", "src/models/wisard/ramdatahandle.cc: data"]}
{"id": "C160", "title": "From training data to synthetic images", "statement": "In a correct Python program that trains a Wisard, getMentalImages() returns a dict whose keys are the labels trained; the image of a label counts, at each pixel, the images trained with this label that are not zero there, times the wires to the pixel. Synthesizer(image).make() on a non-blank image returns zeros and ones, with a one only where some image trained with the label is not zero.", "quantifier": "all training programs with usable options, all wirings, all random draws", "why_tests_cant": "the training sets, wirings and draws are unbounded", "anchors": ["src/wisard_bind.cc: Wisard.train, getMentalImages, Synthesizer", "src/models/wisard/wisard.cc: getMentalImages", "src/synthetic_data/synthesizers.cc: make"]}
{"id": "C161", "title": "Only coincidences between pixels matter", "statement": "Two Wisards that received the same kinds of calls with the same labels, under the same rules for comparing classes, give the same scores for two images whenever every RAM finds its image equal (on its pixels) to a past image of the class exactly when the corresponding RAM of the other model does. In particular a history of pictures written in another notation (pixels elsewhere, values with other numbers, another base) gives the same scores and the same answers.", "quantifier": "all histories of train and leaveOneOut calls, all options, wirings, bases, image lengths and images", "why_tests_cant": "A test compares two concrete models; the claim relates all pairs of histories and notations.", "anchors": ["src/models/wisard/wisard.cc: Wisard::train, Wisard::leaveOneOut, Wisard::classify", "src/models/wisard/discriminator.cc: Discriminator::train, Discriminator::classify", "src/models/wisard/ram.cc: RAM::getIndex, RAM::getVote, RAM::train"]}
{"id": "C162", "title": "Pixel values are only names", "statement": "Renaming the values of every pixel injectively (differently at every position if wanted; keeping zero as zero when ignoreZero is on), with any sufficient base, in all training, untraining and query images changes no score and no answer of a Wisard with default wiring and the same random numbers. In particular a base larger than needed changes nothing.", "quantifier": "all histories, renamings, bases, address sizes, image sizes and query lists", "why_tests_cant": "The renaming and the history are arbitrary; a test can try only a few.", "anchors": ["src/models/wisard/wisard.cc: Wisard::train, Wisard::leaveOneOut, Wisard::classify", "src/models/wisard/discriminator.cc: Discriminator::train, Discriminator::classify", "src/models/wisard/ram.cc: RAM::getIndex, RAM::getVote, RAM::train"]}
{"id": "C163", "title": "Pixels may be stored in any order", "statement": "With the wiring given by the options (indexes or mapping), permuting the pixels, or inserting others, and translating the positions in the options accordingly changes no score and no answer.", "quantifier": "all histories, options, position maps, image lengths and query lists", "why_tests_cant": "Position maps and histories are unbounded.", "anchors": ["src/models/wisard/wisard.cc: Wisard::train, Wisard::leaveOneOut, Wisard::classify", "src/models/wisard/discriminator.cc: Discriminator::train, Discriminator::classify", "src/models/wisard/ram.cc: RAM::getIndex, RAM::getVote, RAM::train"]}
{"id": "C164", "title": "Unread pixels have no influence", "statement": "A pixel that no RAM of the Wisard reads influences neither the effect of train and leaveOneOut nor any classification.", "quantifier": "all histories, options, images and query lists", "why_tests_cant": "A test cannot vary all unread pixels in all histories.", "anchors": ["src/models/wisard/wisard.cc: Wisard::train, Wisard::leaveOneOut, Wisard::classify", "src/models/wisard/discriminator.cc: Discriminator::train, Discriminator::classify", "src/models/wisard/ram.cc: RAM::getIndex, RAM::getVote, RAM::train"]}
{"id": "C165", "title": "Pixel values are only names for a Discriminator", "statement": "Two Discriminators made by the same constructor call, base excepted, that receive the same pictures with the values of every pixel renamed injectively (keeping zero as zero when ignoreZero is on) give the same outcome to every train and untrain call, also to failing ones, and the same votes to every picture.", "quantifier": "all constructor options (given or random wiring inside the entry), renamings, bases, sequences of train and untrain calls and query images", "why_tests_cant": "Renamings and call sequences are unbounded.", "anchors": ["src/models/wisard/discriminator.cc: Discriminator::train, untrain, classify", "src/models/wisard/ram.cc: RAM::getIndex, getVote, train, untrain"]}
{"id": "C166", "title": "Pixel values are only names for a ClusWisard", "statement": "Two ClusWisards made by the same constructor call, base excepted, with the same random numbers, that receive the same pictures with renamed pixel values: every supervised, semi-supervised or unsupervised training call has the same outcome, and afterwards the classes are the same and classify (C++ and Python) and classifyUnsupervised answer alike. In particular a base larger than needed changes nothing. trainUnsupervised works with base 2, so with it the images must have two colours.", "quantifier": "all constructor arguments, renamings, bases, sequences of the three kinds of training, query lists, and float roundings", "why_tests_cant": "Which discriminators a cluster opens depends on the whole history; the claim relates two arbitrary histories.", "anchors": ["src/models/cluswisard/cluswisard.cc: ClusWisard::train, trainUnsupervised, classify, classifyUnsupervised", "src/models/cluswisard/cluster.cc: Cluster::train, Cluster::classify"]}
{"id": "C167", "title": "Training a Wisard with its own answer keeps the answer", "statement": "If a Wisard answers label l for an image, then after training it any number of times with this image and label l it still answers l for it; for any options (bleaching on or off, any confidence, ignoreZero, base, wiring) and after any history of train and leaveOneOut calls.", "quantifier": "all models reached by valid calls, all options, images, labels, numbers of repetitions", "why_tests_cant": "Bleaching may stop at another threshold after the training; tests see few vote tables.", "anchors": ["src/models/wisard/wisard.cc: Wisard::train, classify", "src/common/bleaching.cc: Bleaching::make, isThereAmbiguity, getBiggestCandidate"]}
{"id": "C168", "title": "Every image can be taught", "statement": "With bleaching on and ignoreZero off, in every state of a Wisard: training an image with a label more often than there were calls before makes the model answer this label for the image, if the class has at least two RAMs, no other class has more, and the confidence lies between 1 and the number of RAMs. Without bleaching this is false: a class with a greater label that was trained with the same image keeps the other from ever being answered.", "quantifier": "all histories of valid calls, images, labels and confidences in range; for the negative part all numbers of trainings", "why_tests_cant": "Quantifies over all histories and arbitrarily many repetitions.", "anchors": ["src/models/wisard/wisard.cc: Wisard::train, classify", "src/common/bleaching.cc: Bleaching::make, isThereAmbiguity, getBiggestCandidate"]}
{"id": "C169", "title": "Training a ClusWisard with its own answer keeps the answer", "statement": "If a ClusWisard answers label l for an image, then after a training with this image and label l it still answers l for it.", "quantifier": "all models reached by any calls, all options, images and labels", "why_tests_cant": "The training may open a new discriminator, which changes all vote tables; the claim is about every reachable state.", "anchors": ["src/models/cluswisard/cluster.cc: Cluster::train", "src/models/cluswisard/cluswisard.cc: ClusWisard::train, classify", "src/common/bleaching.cc: Bleaching::make"]}
{"id": "C170", "title": "Noise changes few votes", "statement": "A vote depends only on the pixels its RAM reads: for two images the votes of a Discriminator differ at most at the RAMs that read a pixel in which the images differ. So without bleaching the score of every class changes by at most that number; with the default wiring that reads every pixel once, by at most the number of changed pixels (with completeAddressing a pixel may be read by a few more RAMs). A noisy version of a trained image keeps all RAMs of its class active but that many.", "quantifier": "all discriminators, models, wirings, pairs of images and histories", "why_tests_cant": "Quantifies over all pairs of images and all wirings.", "anchors": ["src/models/wisard/ram.cc: RAM::getVote, getIndex", "src/models/wisard/discriminator.cc: classify, setRAMShuffle", "src/models/wisard/wisard.cc: Wisard::train, classify"]}
{"id": "C171", "title": "A clear answer withstands noise", "statement": "If for an image the score of a class without bleaching leads every other class by more than the RAMs of the two classes that read a changed pixel (and, with bleaching, the lead less these RAMs is at least the confidence), the answer for the changed image is this class. The lead must be taken before bleaching: a model may give a class all RAMs and the others none after bleaching, and one changed pixel makes it answer another class.", "quantifier": "all models, options, pairs of images", "why_tests_cant": "Quantifies over all states and pairs of images.", "anchors": ["src/models/wisard/wisard.cc: Wisard::classify", "src/common/bleaching.cc: Bleaching::make, getBiggestCandidate"]}
{"id": "C172", "title": "Leave-one-out evaluation", "statement": "After leaveOneOut of a trained image, a training of the same image with its label gives exactly the model from before. In between, the model gives the same scores and labels as a model of the same wiring trained with the other samples only, provided the class has another sample. So the loop leaveOneOut, classify, train over all samples keeps the model and answers for each sample what a model without it would answer. For the only sample of a class this fails: the empty class stays and can be the answer.", "quantifier": "all histories of trainings, samples, options", "why_tests_cant": "Quantifies over all histories and all samples; equality of whole models.", "anchors": ["src/models/wisard/wisard.cc: Wisard::leaveOneOut, train, classify", "src/models/wisard/ram.cc: RAM::untrain, train", "src/models/wisard/discriminator.cc: untrain, train"]}
{"id": "C173", "title": "A ClusWisard with one discriminator per class is a Wisard", "statement": "Give a new Wisard (with the default choice of wiring) and a new ClusWisard with discriminatorsLimit 1 (any minScore and threshold) options that say the same and the same train calls (and random numbers). If the calls succeed on the Wisard they succeed on the ClusWisard, which then has one discriminator per class, equal to the Wisard's. Both return the same labels, the same Python results with all degrees, and the same mental images, for labels without '::' that do not end in ':' and where no label is followed by a byte up to ':' (such as a digit) in another. For any labels the scores are equal unless bleaching runs with a confidence above 1, and a class that alone has the greatest score is answered by both. With labels like 1 and 10 a tie goes to different classes.", "quantifier": "all lists of train calls, images, labels, options, minScore, threshold, roundings, random choices", "why_tests_cant": "Equality of two models after arbitrary call sequences.", "anchors": ["src/models/cluswisard/cluster.cc: Cluster::train", "src/models/cluswisard/cluswisard.cc: ClusWisard::train, classify", "src/models/wisard/wisard.cc: Wisard::train, classify", "src/wrappers/cluswisardwrapper.cc: pyClassify", "src/wrappers/wisardwrapper.cc: pyClassify"]}
{"id": "C174", "title": "Training one image again and again", "statement": "The score of a discriminator, computed in float, is the exact quotient (sum of the votes divided by greatest vote times number of RAMs) rounded once, lies between 0 and 1, and is 1 exactly if all RAMs give the same vote, as long as greatest vote times number of RAMs is at most 2^24; for votes that are int numbers its sum never exceeds 2^56, so it cannot overflow. Consequently a new ClusWisard without ignoreZero that trains one and the same valid image k times under one label (k times the number of RAMs at most 2^24) makes one discriminator for it, trained k times, whose RAMs all answer k, whatever minScore, threshold and discriminatorsLimit. Both conditions are needed: with six RAMs and room for a second discriminator there is a number of trainings (at most 3355446) after which the class has two; with ignoreZero, k trainings of the image of zeros make k discriminators as long as the limit allows.", "quantifier": "all vote lists, parameters, images, labels and numbers of trainings", "why_tests_cant": "Depends on the rounding of float at numbers of trainings in the millions and on all parameters.", "anchors": ["src/models/cluswisard/cluster.cc", "src/models/cluswisard/cluswisard.cc", "src/models/wisard/discriminator.cc"]}
{"id": "C175", "title": "Noise and ClusWisard", "statement": "Without bleaching, the score that a ClusWisard in any state gives with one of its discriminators changes, when pixels of the image change, by at most the number of this discriminator's RAMs that read a changed pixel. For every image of a successful train call (without ignoreZero), whatever calls came before and after, and any other accepted image, some discriminator of the image's class activates all its RAMs except at most those that read a changed pixel. If a discriminator of a class leads all discriminators of the other classes by more than the RAMs of both that read a changed pixel, the changed image is answered with this class.", "quantifier": "all ClusWisards, histories of calls, images and changes", "why_tests_cant": "Quantifies over all states, pairs of images and later calls.", "anchors": ["src/models/cluswisard/cluswisard.cc", "src/models/cluswisard/cluster.cc", "src/models/wisard/ram.cc", "src/common/bleaching.cc"]}
{"id": "C176", "title": "More training and ClusWisard", "statement": "No sequence of calls on a ClusWisard (train, trainUnsupervised, classify and so on, failing calls included), from any state, removes or renumbers a discriminator of a class or lowers one of the votes it gives any image. So without bleaching no call lowers a score, and a train call, successful or not, changes the answer for an image only to one of the labels of this call (labels without the separator). With bleaching this fails: training a third class can lower a score and move an image between two classes that were not trained.", "quantifier": "all ClusWisards, sequences of calls and images", "why_tests_cant": "Quantifies over all states, images and later calls, failing ones included.", "anchors": ["src/models/cluswisard/cluswisard.cc", "src/models/cluswisard/cluster.cc", "src/models/wisard/discriminator.cc", "src/models/wisard/ram.cc", "src/common/bleaching.cc"]}
{"id": "C177", "title": "From sequences of points to classes", "statement": "A KernelCanvas in IEEE arithmetic (at most 2^24 kernels, useDirection only for dimension 1) and a new Wisard with default wiring and an admissible address size work together for all data: whatever labelled sequences of points of the right dimension are transformed and trained, infinite coordinates, NaN and empty sequences included, no call fails, and every further sequence is transformed and answered with one of the trained labels. Without bleaching and ignoreZero, for a sequence that was trained and any other sequence, the trained class gets all its RAMs except at most bitsByKernel for each kernel that is active for one of the two sequences only (if the address size divides the image, or without completeAddressing; in general times the number of RAMs that may read one pixel). Sequences with the same active kernels have the same image.", "quantifier": "all canvases, sequences of doubles, labels, random choices and address sizes", "why_tests_cant": "Quantifies over all doubles, sequences and random choices.", "anchors": ["src/binarization/kernelcanvas.cc", "src/wrappers/kernelcanvaswrapper.cc", "src/models/wisard/wisard.cc", "src/models/wisard/discriminator.cc"]}
{"id": "C178", "title": "The size of a model, asked from Python", "statement": "In Python getsizeof takes no argument (any other call raises TypeError). Whatever calls a program makes on a Wisard or a Discriminator, failing ones included, getsizeof() returns a number and never a smaller one than before. After a correct program on a new Wisard it is the object plus, for each class, its name and its discriminator with 8 bytes per wire and 12 bytes per different pattern among the images of that class. For a ClusWisard it returns the sum over its clusters, classes and discriminators, or is undefined exactly if a cluster holds a discriminator that could not be made.", "quantifier": "all Python programs (sequences of calls with any arguments) and models", "why_tests_cant": "Quantifies over all programs, arguments and failures.", "anchors": ["src/wisard_bind.cc", "src/models/wisard/wisard.cc", "src/models/wisard/discriminator.cc", "src/models/wisard/ram.cc", "src/models/cluswisard/cluswisard.cc", "src/models/cluswisard/cluster.cc"]}
{"id": "C179", "title": "A data set only counts by its inputs and labels", "statement": "Two data sets with the same inputs and the same labels at every index, whatever their histories, train every Wisard alike, to the same model and with the same outcome, failures included, and get the same answers. In particular a fully labelled data set saved under a fresh name and loaded again is as good as the original.", "quantifier": "all data sets, models, states and random choices", "why_tests_cant": "Quantifies over all data sets and models.", "anchors": ["src/data/dataset.cc", "src/models/wisard/wisard.cc", "src/wrappers/wisardwrapper.cc"]}
{"id": "C180", "title": "Images can be unlearnt in parallel", "statement": "Threads that call leaveOneOut or leaveMoreOut on one Wisard at the same time, no class being unlearnt by two threads, have no data race on any implementation of the C++ standard library, whether or not the classes exist; every call has the outcome it has alone, and the Wisard ends as if the threads had run one after the other. The same holds for threads that train existing classes next to them if operator[] of std::map only searches existing keys; where it counts as a write, training one class and unlearning another at the same time is a data race.", "quantifier": "every number of threads, every list of images and labels per thread, every Wisard, every interleaving", "why_tests_cant": "Races show up in few schedules and depend on the library.", "anchors": ["src/models/wisard/wisard.cc", "src/models/wisard/discriminator.cc", "src/models/wisard/ram.cc"]}
{"id": "C181", "title": "ClusWisards made in the same second are copies", "statement": "All pixels that the discriminators of a ClusWisard read are drawn from the C generator of the process, which the constructor of the ClusWisard seeds from the clock in seconds. Whatever the generator returns and whatever else the process does with it, the life of a ClusWisard is one that the other properties cover; two ClusWisards made in the same second and given the same calls next, in the same or in two processes, are equal and every call has the same outcome; over all times and processes the same construction and calls lead to at most 1000001 different ClusWisards; and if any Wisard or ClusWisard is made between two trainings in the same second, the first discriminators of the two new classes read exactly the same pixels in the same order.", "quantifier": "every C generator, every clock value, every state of the generator, every constructor argument, every sequence of training and mental-image calls, every interleaving with other uses of the generator", "why_tests_cant": "the wiring depends on the clock and on the history of a process-wide generator; tests see a few seconds of one process", "anchors": ["src/models/cluswisard/cluswisard.cc: ClusWisard::ClusWisard, train, trainUnsupervised", "src/models/cluswisard/cluster.cc: Cluster::train", "src/models/wisard/discriminator.cc: Discriminator::setRAMShuffle", "src/common/utils.cc: randint"]}
{"id": "C182", "title": "ClusWisards in several threads", "statement": "Training, classifying and mental images of a ClusWisard, made alone, do what the other properties say. One thread may work on the labelled classes of a ClusWisard (train, classify, mental images) while another classifies with its unsupervised cluster; where operator[] of std::map only searches when the key exists, one thread may train the unsupervised cluster while any number of threads classify with the labelled classes. In both cases there is no data race in any interleaving, every call returns what it returns alone, and the ClusWisard ends as after one thread and then the other. By the letter of the C++ standard, where that operator counts as a write, two threads that only classify with one ClusWisard that has learnt anything already have a data race; so have, in every implementation, two threads that each construct a ClusWisard, or that each train a ClusWisard of their own with an image that needs a new discriminator.", "quantifier": "every C generator, both readings of operator[], every state of the models, every list of calls, every interleaving of the accesses to memory", "why_tests_cant": "Races show up in few schedules and depend on timing and on the standard library.", "anchors": ["src/models/cluswisard/cluswisard.cc: ClusWisard::ClusWisard, train, trainUnsupervised, classify, classifyUnsupervised, getMentalImage", "src/models/cluswisard/cluster.cc: Cluster::train, Cluster::classify, Cluster::makeDiscriminator", "src/common/utils.cc: randint"]}
{"id": "C183", "title": "What a data set returned stays what it was", "statement": "An input obtained from a DataSet with get stays what it was when the data set is later added to, also when the input is added to its own data set: every program with data sets, inputs, copies of them and references to inputs returns what it would return if data sets and inputs were values and a reference stood for an input of a data set.", "quantifier": "every implementation of the growth of std::vector, every C++ or Python program made of constructions, copies, destructions, add, get, getLabel, size, set and reads of pixels", "why_tests_cant": "The moment at which an array is replaced depends on the standard library and on the number of calls; a test passes on freed memory.", "anchors": ["src/data/dataset.cc: DataSet::get, DataSet::operator[], DataSet::add, DataSet::size, DataSet::getLabel", "src/data/bininput.cc: BinInput::get, BinInput::set", "src/wisard_bind.cc: py::class_<DataSet>"]}
{"id": "C184", "title": "The order of the points of a sequence", "statement": "The output of KernelCanvas.transform depends on the points of a sequence, not on their order: two sequences with the same points in different order have the same output.", "quantifier": "every KernelCanvas without useDirection (or of dimension 1), every sequence of points of its dimension, every reordering of it, every implementation of std::sort", "why_tests_cant": "The sums that give the means are rounded at every step, and may overflow on the way; only some orders of some sequences show it.", "anchors": ["src/binarization/kernelcanvas.cc: KernelCanvas::transform, KernelCanvas::multDimMean, KernelCanvas::multDimStd, KernelCanvas::activateKernels", "src/wrappers/kernelcanvaswrapper.cc: KernelCanvasWrapper"]}
{"id": "C185", "title": "From sequences of points to clusters", "statement": "A program that transforms sequences of points with a KernelCanvas and trains a new ClusWisard with the images, with labels, with labels for some of them or without labels, never fails, whatever the points are, and every sequence is answered with a label that was given. A sequence that differs from a learned one in few active kernels still activates almost all RAMs of some discriminator of its class.", "quantifier": "all canvases of at most 2^24 kernels (useDirection only with dimension 1), all configurations of an admissible size, all programs of the three kinds of training (unlabelled ones first), all sequences of doubles, infinities and NaN included, all sorts and wirings", "why_tests_cant": "Programs, point sequences and random wirings are unbounded.", "anchors": ["src/binarization/kernelcanvas.cc: KernelCanvas::transform", "src/models/cluswisard/cluswisard.cc: ClusWisard::train, ClusWisard::classify, ClusWisard::trainUnsupervised", "src/models/cluswisard/cluster.cc: Cluster::train"]}
{"id": "C186", "title": "The units of the coordinates of a KernelCanvas do not matter", "statement": "If a coordinate of all points of a sequence is expressed in another unit, a power of two times the old one (a different power for every coordinate), KernelCanvas.transform gives the same output in IEEE arithmetic: the rounding errors of the standardisation are the same. This holds of numbers away from the ends of the range of double; near them the deviation overflows and other kernels are activated.", "quantifier": "all canvases of at most 2^24 kernels (useDirection only with dimension 1), all sequences of fewer than 2^53 points, all exponents, positive or negative, for every coordinate, all sorts", "why_tests_cant": "Points, scales and rounding errors are unbounded; a test compares a few sequences.", "anchors": ["src/binarization/kernelcanvas.cc: KernelCanvas::transform, multDimMean, multDimStd"]}
{"id": "C187", "title": "Saving and loading a model now and then leaves no trace", "statement": "A program that creates a Discriminator, Wisard or ClusWisard, trains it (calls may fail and be caught) and at any moments replaces it by a new object made from its json(huge, path) text, with the contents in the text or in files, gets the same outcome from every call as a program that never does so; no json() and no constructor fails; and the final object cannot be told from the other program's by any further calls, jsonConfig() among them. Before a save every class must have learnt something and be within the int ranges and text size limit, labels and paths must be UTF-8, the files of a save must be new and left alone until they are read (and no class named unsupervised_cluster then); after a reload of a Wisard new labels must not be named by its mapping option, and a ClusWisard trained without labels must have base 2 (C33-C36 show what happens otherwise).", "quantifier": "all constructor options, all interleavings of any number of calls (failing ones included) and reloads through texts and files, all hash table orders and file systems at every moment", "why_tests_cant": "The number of reloads and the calls between them are unbounded; a test does one reload of one model.", "anchors": ["src/models/wisard/discriminator.cc: Discriminator::json, Discriminator(std::string)", "src/models/wisard/wisard.cc: Wisard::json, Wisard(std::string), train, leaveOneOut", "src/models/cluswisard/cluswisard.cc: ClusWisard::json, ClusWisard(std::string), train, trainUnsupervised"]}
{"id": "C188", "title": "A stricter confidence never raises a score", "statement": "Two Wisards that differ only in bleachingActivated and confidence and are trained alike have the same outcomes of all trainings, and for every image no class scores higher in the stricter one (bleaching instead of none, or bleaching with a larger confidence). A confidence of 0 or less is the same as no bleaching. The same comparison of scores holds for ClusWisards in any state. The answer may change, even one of which the laxer model was sure: asked for the only image of a class, the stricter model may answer another class.", "quantifier": "all options, all training histories, all images, all pairs of confidences", "why_tests_cant": "Confidences, histories and images are unbounded; a test compares a few.", "anchors": ["src/common/bleaching.cc: Bleaching::make", "src/models/wisard/wisard.cc: Wisard::_classify", "src/models/cluswisard/cluswisard.cc: ClusWisard::classify"]}
{"id": "C189", "title": "Synthetic images of nested samples are samples", "statement": "Take a Wisard trained without errors, and a class whose pixels are all wired equally often and of whose samples not all are black. A synthetic image drawn from the mental image of the class contains every pixel that all its samples have and no pixel that none of them has. If the samples are 0/1 images and nested (of two, one always contains the other), every synthetic image is one of the samples, and if zero addresses are not ignored every RAM of the class knows it. With the default wiring all this holds whenever addressSize divides the number of pixels. Both conditions are needed: two samples that are not nested give an image that no one has trained and not all RAMs know, and when addressSize does not divide the number of pixels a pixel wired twice outshines the others, so that an image other than the only sample is drawn.", "quantifier": "all training histories, classes, random numbers of the synthesizer and of the wiring, hash orders", "why_tests_cant": "Histories, image sizes and random draws are unbounded; a test looks at a few images.", "anchors": ["src/synthetic_data/synthesizers.cc: Synthesizer::makeCube", "src/synthetic_data/synthesizers.cc: Synthesizer::make", "src/models/wisard/wisard.cc: Wisard::getMentalImages", "src/models/wisard/discriminator.cc: Discriminator::getMentalImage"]}
{"id": "C190", "title": "A data set can be its own archive, under a new name each time", "statement": "A program that adds samples to a DataSet and every now and then saves it and goes on with the DataSet loaded from the file ends with the data set of a program that only adds, and no save and no load fails, provided that before each save there are samples, all labelled, and the file name is unused. With one name for all saves it does not work: after loading and saving again under the same name, the file is not loadable or has too many samples; only if the first save was of a single sample is the number right, and then that sample comes back as a larger image, without any error.", "quantifier": "all sequences of adds, saves and loads, all file systems, all prefixes", "why_tests_cant": "The number of reloads and the data sets are unbounded; a test saves once or twice.", "anchors": ["src/data/dataset.cc: DataSet::DataSet(const std::string)", "src/data/dataset.cc: DataSet::save", "src/data/dataset.cc: DataSet::add"]}
{"id": "C191", "title": "The default wiring does not know which pixels are neighbours", "statement": "Move the pixels of all images of a program, the same way in all of them. The sources of random numbers correspond to each other one to one (what one run draws, the other draws after the move; the correspondence depends only on the move), and a Wisard with default wiring from corresponding random numbers, trained with the moved images, gives every moved image the same scores and the same label as the Wisard of the original program gives the original. The same holds for a Discriminator, and for a ClusWisard (supervised, semi-supervised and unsupervised training), where every training call also has the same outcome. So whatever is achieved on pictures is achieved, for as many of the random wirings, on pictures whose pixels were scrambled.", "quantifier": "all image sizes, all moves, all random numbers, all options with default wiring, all training histories, all images", "why_tests_cant": "Moves, histories and random numbers are unbounded; a test runs with a few seeds.", "anchors": ["src/models/wisard/discriminator.cc: Discriminator::setRAMShuffle", "src/models/wisard/wisard.cc: Wisard::makeDiscriminator", "src/common/utils.cc: randint", "src/models/cluswisard/cluswisard.cc: ClusWisard::train, ClusWisard::trainUnsupervised, ClusWisard::classify"]}
{"id": "C192", "title": "The shuffle favours no wiring", "statement": "The default wiring of a Discriminator is drawn fairly. When the RAMs divide the image evenly, for every wiring (tuples of addressSize pixels that use every pixel once, in any order) there is exactly one sequence of remainders (of the first number drawn modulo 2, of the second modulo 3, and so on) with which the constructor draws that wiring: whatever the generator, the clock and the history of the process, it draws the wiring if and only if its numbers leave these remainders. So if the remainders are uniform and independent, all wirings are equally likely. (How few of them the seeding lets through is the subject of C118.)", "quantifier": "all sizes, all wirings, all generators, seeds and process histories", "why_tests_cant": "The number of wirings is the factorial of the number of pixels; a test that counts frequencies covers tiny images only.", "anchors": ["src/models/wisard/discriminator.cc: Discriminator::setRAMShuffle (random_shuffle)", "src/models/wisard/discriminator.cc: Discriminator(int,int,...)"]}
{"id": "C193", "title": "The mental images of scrambled images are the scrambled mental images", "statement": "Move the pixels of all images of a program, the same way in all of them, and wire with the corresponding random numbers (C191): the Wisard has the same classes, and getMentalImages() gives for each class the mental image of that class of the original program, moved the same way; in whatever order the RAMs store their contents. The same holds for the mental image of a Discriminator. And a Synthesizer made from the moved mental image returns, for the same random number, the moved synthetic image.", "quantifier": "all image sizes, all moves, all random numbers and storage orders, all options with default wiring and base^addressSize at most 2^31, all histories of trainings and of leaveOneOut with trained images, up to the size where the counters overflow", "why_tests_cant": "Moves, histories and random numbers are unbounded; the storage order cannot be controlled in a test.", "anchors": ["src/models/wisard/wisard.cc: Wisard::getMentalImages", "src/models/wisard/discriminator.cc: Discriminator::getMentalImage, Discriminator::setRAMShuffle", "src/models/wisard/ram.cc: RAM::getMentalImage"]}
{"id": "C194", "title": "RAMs that read more pixels are more selective", "statement": "Train two discriminators with the same calls. A RAM of the second whose pixels are among those of a RAM of the first gives every image at least the vote of that RAM (unless ignoreZero silences it). So if each RAM of the second reads part of what some RAM of the first reads, every image that all RAMs of the first recognise is recognised by all RAMs of the second: in particular for the same list of indexes and an address size that divides the other. The same holds class by class for two Wisards without bleaching: full marks from the model with the larger addresses mean full marks from the other.", "quantifier": "all pairs of discriminators wired inside the image, all histories of trainings and of untrainings of trained images, all images, all address sizes A and k*A that fit the image; for Wisards all training histories and all labels", "why_tests_cant": "The histories, wirings and images are unbounded, and the claim compares two models.", "anchors": ["src/models/wisard/ram.cc: RAM::getVote, RAM::train, RAM::untrain, RAM::getIndex", "src/models/wisard/discriminator.cc: Discriminator::classify, Discriminator::setRAMByIndex", "src/models/wisard/wisard.cc: Wisard::classify"]}
{"id": "C195", "title": "Merging classes", "statement": "Train a second Wisard with the same images, but give several labels a common new label, with the same wiring for all classes. Without bleaching the score of the new class is, for every image, at least the score of each class it replaces and at most the sum of their scores. Its mental image is, pixel by pixel, the sum of their mental images.", "quantifier": "all training histories, all functions from old labels to new labels, all images, all wirings, all orders in which the calls draw random numbers and in which RAMs store their contents; for mental images base^n at most 2^31 and counters that do not overflow", "why_tests_cant": "The claim compares two models over all histories and all ways of merging labels.", "anchors": ["src/models/wisard/wisard.cc: Wisard::train, Wisard::classify, Wisard::getMentalImages", "src/models/wisard/discriminator.cc: Discriminator::classify, Discriminator::getMentalImage", "src/common/bleaching.cc: Bleaching::make"]}
{"id": "C196", "title": "Training can be split", "statement": "Three Discriminators have the same wiring. The first learns (and forgets) one part of a sequence of images, the second another part, the third both. For every image, each RAM's vote in the third is the sum of its votes in the first two, and the third's mental image is, pixel by pixel, the sum of theirs. (In each part only trained images are untrained.)", "quantifier": "all pairs of histories of train and untrain calls, all images, all wirings and options, all orders in which RAMs store their contents; for mental images base^n at most 2^31 and counters that do not overflow", "why_tests_cant": "The claim compares three models over all pairs of histories and all images.", "anchors": ["src/models/wisard/discriminator.cc: Discriminator::train, Discriminator::untrain, Discriminator::classify, Discriminator::getMentalImage", "src/models/wisard/ram.cc: RAM::train, RAM::untrain, RAM::getVote, RAM::getMentalImage"]}
{"id": "C197", "title": "Pixels that say nothing new do not matter", "statement": "Two Wisards with the same rules learn the same labelled images. Each RAM of the second reads the pixels that the same RAM of the first reads, except for some whose values, among all the images ever shown, are determined by the pixels it still reads: constant pixels, copies, negatives. Then the two give the same answers to all these images. Two Discriminators give the same votes, RAM by RAM, after any history of trainings and untrainings. (If RAMs ignore zeros, the omitted pixels must also be zero whenever the others are.)", "quantifier": "all histories of labelled images, all sets of images and pixels determined by others, all wirings, options that follow the same rules, and orders in which the calls draw random numbers", "why_tests_cant": "The claim compares two models over all histories and all dependencies between pixels.", "anchors": ["src/models/wisard/ram.cc: RAM::getIndex, RAM::train, RAM::getVote", "src/models/wisard/discriminator.cc: Discriminator::train, Discriminator::untrain, Discriminator::classify", "src/models/wisard/wisard.cc: Wisard::train, Wisard::classify"]}
{"id": "C198", "title": "Models can be put side by side", "statement": "The wiring of a third model is the wiring of a first followed by the wiring of a second, and all three learn the same images. For Discriminators, the votes of the third for an image are the votes of the first followed by those of the second, and its mental image is, pixel by pixel, the sum of theirs. For Wisards without bleaching, the three know the same classes and each score of the third is the sum of the scores of the first two.", "quantifier": "all histories, all images, all pairs of wirings (per class for Wisards), all options that agree on zeros, all orders in which the calls draw random numbers and in which RAMs store their contents; for mental images base^n at most 2^31 and counters that do not overflow", "why_tests_cant": "The claim compares three models over all histories, wirings and images.", "anchors": ["src/models/wisard/discriminator.cc: Discriminator::train, Discriminator::untrain, Discriminator::classify, Discriminator::getMentalImage", "src/models/wisard/wisard.cc: Wisard::train, Wisard::classify", "src/common/bleaching.cc: Bleaching::make"]}
{"id": "C199", "title": "The order of the RAMs does not matter", "statement": "Two Wisards with the same rules learn the same labelled images, and each class has the same RAMs in both, in any order and with their pixels in any order. Then they give the same scores and answers to all images, with or without bleaching. Two such Discriminators have, after any history of trainings and untrainings, the same votes in some order and the same mental image.", "quantifier": "all histories of labelled images, all images, all wirings and their permutations, all options, all orders in which the calls draw random numbers and in which RAMs store their contents; for mental images base^n at most 2^31 and counters that do not overflow", "why_tests_cant": "The claim compares two models over all histories and all permutations of the wiring.", "anchors": ["src/models/wisard/ram.cc: RAM::getIndex, RAM::train, RAM::getVote", "src/models/wisard/discriminator.cc: Discriminator::classify, Discriminator::getMentalImage", "src/models/wisard/wisard.cc: Wisard::train, Wisard::classify", "src/common/bleaching.cc: Bleaching::make"]}
{"id": "C200", "title": "Two training sets together", "statement": "Three Wisards without bleaching have classes that are wired alike; the third learns the images of the first and those of the second, in any order. For every image the third knows exactly the classes that the first or the second knows, and the score of a class is at least its score in each of them and at most the sum of the two.", "quantifier": "all pairs of training histories and all ways of interleaving them, all images, all wirings, all options that agree on zeros, all orders in which the calls draw random numbers", "why_tests_cant": "The claim compares three models over all histories, interleavings and images.", "anchors": ["src/models/wisard/wisard.cc: Wisard::train, Wisard::classify", "src/models/wisard/discriminator.cc: Discriminator::classify", "src/common/bleaching.cc: Bleaching::make"]}
