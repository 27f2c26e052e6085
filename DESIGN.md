# Formal model of IAZero/wisardpkg in Lean 4 — design

## 1. Approach

* One Lean definition per C++ function of `/repo/src` (the single header `include/wisardpkg.hpp` is the concatenation of these
  files), each with a comment citing file and lines and, where the model simplifies, saying so.
* Outcomes: every function that can fail returns `Res α = Except Err α`, where `Err` is either `throw e` (a C++ exception,
  named) or `ub u` (undefined behaviour: out-of-bounds access, signed overflow, division by zero, read of an uninitialised
  member, null dereference). UB is never assumed away: where the code can reach it, theorems say so.
* Functions that mutate return the new state **also on failure** (`σ × Res α`), because C++ keeps the changes made before a
  `throw`. Histories in theorems therefore include failing calls.
* Strings are byte lists (`List (BitVec 8)`), `addr_t` is `BitVec 64`, `int` is `Int` with explicit overflow checks where the
  code does arithmetic on stored counters.
* `std::map<std::string,_>` is an association list kept sorted by byte order (`SMap`); `std::unordered_map` is an association
  list with distinct keys and an arbitrary iteration order (`IterOrder`, a parameter: any permutation, fixed by the insertion history).
* `rand()` and `random_shuffle` are parameters (`Rnd`): arbitrary values / arbitrary permutations. Theorems quantify over them.
  `Model/Rand.lean` draws them from one generator shared by the process and seeded from the clock (C117–C121).
  The unspecified evaluation order of `m[label] = X(...)` before C++17 is a parameter too (`Env.lhsFirst`).
* Floating point: scores in `Cluster` use an arbitrary monotone rounding (`Flt`), of which IEEE binary32 is proved to be one (`Flt.single`, `Model/Ieee.lean`); degrees returned to Python are exact
  fractions, and in C128 the rounded floats; KernelCanvas doubles are an abstract type with the order laws that its code needs (`FOps`, `FLaws`),
  which IEEE binary64 is proved to satisfy (`Dbl.ops`, `Dbl.laws`, C129), and `std::sort` is any
  correct sorting (`Sorter`).
* JSON: conversion of models to and from JSON values **and** the text (`nlohmann::json` `dump`, lexer with its UTF-8 ranges, `\u`
  escapes, number grammar, parser) are modelled. Only the conversion of floats to and from decimal text is a parameter
  (`FloatText`) with the contract `FloatOk`.
* Files: a map from names to contents, with the `ios::app` and `getline(...,'.')`/`eof` behaviour of the code.
* pybind11: the wrapper classes are modelled (keyword loops, result dictionaries); which Python values `cast<T>()` accepts is a
  parameter (`PyCasts`).

## 2. Layout (lean/Verif)

* `Model/*`   – the model (executable definitions only), one file per C++ class or concern.
* `Spec/*`    – small independent specifications used in theorem statements (histories, counting, RFC 4648, vote tables, …).
* `Lemmas/*`  – helper lemmas.
* `Props/*`   – the property theorems `Wis.Cnn_…`, each with an `example` meeting its hypotheses in a concrete, non-trivial case.

Names: `Cnn_…` belongs to property Cnn; `…_partial` proves only part of it (the missing part is in its comment and in
MANIFEST.json); `…_refuted` and the theorems named after what goes wrong (`…_ub`, `…_ignored`, `…_throws`, …) prove that the property, as a
user expects it, is false of the code.

## 3. Per-property plan: what is modelled and how it is proved

| id | what is modelled | how it is proved |
|----|------------------|------------------|
| C01, C02 | Base64 loops with index checks | refinement to an arithmetic RFC 4648 specification, bit lemmas, induction on the string |
| C03–C06 | BinInput bytes | bit-level lemmas, induction over write histories; C06 refuted for values outside {0,1} |
| C07–C10 | DataSet, file map, getline | separator-free segments, induction over records; C09, C10 refuted by witness |
| C11–C16, C20–C25 | RAM, Discriminator | refinement to a history specification (counting matching images); positional-numeral injectivity |
| C12 | ipow, checkLimitAddressSize | closed form of ipow by induction; the guard for base≠2 never throws (refutation) |
| C17 | getMentalImage | digit extraction inverse to getIndex, sum over a permuted association list |
| C18, C19 | setRAMShuffle, setRAMByIndex | permutation arguments; negative index refutation |
| C26 | getsizeof | invariant over history |
| C27–C29, C33–C36 | JSON value conversion, RAMDataHandle text, files | round-trip lemmas and bisimulation; refutations by witness |
| C30–C32, C76 | RAMDataHandle | round trip; compare = map equality; divergence of data() proved for negative keys |
| C37–C43 | Bleaching | well-founded recursion on (max vote − threshold); least-threshold characterisation |
| C44–C51, C73, C74, C87, C88 | Wisard | corollaries of the history refinement; simulation between list and DataSet training |
| C52–C54 | Python result dictionaries | rational arithmetic |
| C55–C65, C75, C77–C79, C84–C86 | Cluster, ClusWisard | invariants over training histories, for every monotone rounding; refinement of each discriminator to its own history |
| C66, C67, C80 | Synthesizer | counting over all draws |
| C68–C71, C81, C82 | KernelCanvas | structural invariants with abstract distances; index arithmetic for C70 |
| C72 | negative pixels | aliasing witness for every base and size |
| C83 | ClusWisard result dictionaries | per-discriminator votes, refutation of the per-class reading |
| C89, C90, C92 | JSON text | printer/parser inversion by induction on values; lexer invariants; prefix arguments on the token stream |
| C91, C93 | models as text | C27/C33/C36 composed with C89 and C92 |
| C96, C97 | getsizeof of a whole history | counting lemmas over training histories |
| C98–C100 | JSON grammar | an inductive grammar of RFC 8259 (Spec/JsonGrammar), soundness and completeness of the parser by induction |
| C101–C104 | crash points of the writers: files cut to any prefix, missing files | exact result of decoding a prefix, induction over records and RAMs |
| C105 | RAMDataHandle::save | C30 composed with the file loop |
| C106–C110 | whole training histories of a Wisard | votes counted over the training images (C11, C45), least-threshold characterisation (C38); C110 by scaling of thresholds |
| C111 | runs with different random numbers | equality of states step by step |
| C112, C113 | runs with renamed labels | simulation between the two runs; order-independence of ambiguity for confidence ≤ 1 |
| C114, C115 | constructors from JSON documents against a description of documents (Spec/LoadJson) | inversion of the reading code in both directions; congruence of member lookups |
| C116 | the same constructors, then classify; conditions in Spec/LoadSafe | no-UB lemma for every reading step; decode is total on lengths divisible by 4; counterexample documents by evaluation in the kernel |
| C117–C121 | one generator for the process (`CRand`: srand, rand, random_shuffle, clock), constructors drawing from it (Model/Rand) | each such function is the function of the other modules with the numbers drawn; independence of the old state after seeding; pigeonhole on 100001 seeds against n! wirings |
| C122 | dump(2) of the configuration (Model/PrettyText) | grammar derivation by induction on values; composed with C98 and C35 |
| C123 | loading as a function of the file system | congruence of every reading step in the files named |
| C124–C126 | a heap of discriminators behind raw pointers, a process with several ClusWisards, copies and destructors (Model/ClusHeap) | refinement to values under the invariant that every pointer is owned once; counterexamples for copies |
| C127 | the printing loops (Model/Progress) | one lemma for the loop with progress messages, projections to the silent functions |
| C128 | IEEE binary32 rounding (Model/Ieee), the wrappers computing in it (Model/PyFloat) | nearest-float property of the rounding function, monotonicity from it; spacing of floats below 1 |
| C129, C130 | IEEE binary64 operations on reals, with overflow, infinities and NaN (Model/Double), kernels drawn by `rand()` | the laws `FLaws` proved of them from monotonicity of rounding; a constant column gives 0/0; a difference of doubles is zero only if they are equal |
| C131 | float arguments with NaN and infinities (Model/NanArgs) | refinement to the models on numbers; induction over the images of a class |
| C132, C133 | the C++ constructors reading JSON options (Model/CppCtor), an uninitialised member as `none` | each option by the equivalences of C94 and C114 |
| C134 | `BBleaching` (Model/BBleaching), loop by well-founded recursion on the exponent | induction over the rounds; the thresholds as sums of halves |
| C135 | `Impl.callP` (Model/Threads): every call as a program that reads and writes one location at a time; `Spec/Threads`: schedules, data races | refinement of every program to the function of the other modules (Lemmas/Threads*); threads without writes commute (`Separate`) |
| C136 | same | induction over the two programs: a result that depends on a location leads to an access of it; lockstep execution of idempotent writes |
| C137 | same; which locations a call uses, from the state it starts in | invariant `Separate` over all schedules; the memory at the end does not depend on the schedule, and running one after the other is a schedule |
| C138 | same, with the parameter `bracketWrites` | corollary of C137; counterexample for all Wisards if `operator[]` writes |
| C139, C140 | the models of C21-C35 started from any state (Spec/AnyState: the number an image makes on a RAM, read from the document) | induction over the history; one step changes one position of one RAM |
| C141 | cluster training from any state, with threshold 0 and NaN limits (Model/NanArgs) | the scan loop against the scores, as in C57 |
| C142 | `getMentalImage` from any state, negative digits included | invariants of the two loops; sums over the stored positions |
| C143, C144 | `ofstream` on a disk that may refuse to open a file or take only some bytes (Model/Disk) | every save is a list of appends (`Saves`), by induction over RAMs, classes, clusters |
| C145, C146 | overload tables of wisard_bind.cc and the conversions of pybind11 on an inductive type of Python values (Model/Bind); which C++ value a Python value stands for (Spec/Bind) | each conversion is equivalent to its relation, then each overload set by cases on the shape of the arguments |
| C147 | same; `str` to UTF-8 and back | encoder and decoder against the table of the Unicode Standard; names in the output are classes |
| C148, C149 | decimal text of doubles | Model/Grisu: the functions of `dtoa_impl` one by one, `uint64_t` wrap-around explicit, a failing assert or table access is `none`. Proof: the 79 cached powers are within one half unit of the powers of ten (checked by the kernel, table_ok), the scaled boundaries enclose the number, the digit loops keep an interval invariant, rounding keeps the digits inside it; what lies strictly between the middles to the neighbours has the number as only nearest double. Then the JSON text theorems are instantiated. |
| C150, C151 | Python programs on a Wisard: the methods that change it, called in sequence with arbitrary Python values | every program is a history (each call contributes a prefix of what it asks for); correct programs: totality of valid histories, UTF-8 of every JSON text, reload |
| C152, C153, C154 | Python programs on a ClusWisard; all three kinds of training | every call asks for one C++ call determined by its arguments; invariant `GoodW`/`GoodU` kept by every valid training; reload as in C100/C149 |
| C155, C156 | the remaining bound methods with the exceptions of pybind11 and of Python's iteration protocol (Model/PyObjects: result `ok`, `raised` or undefined behaviour) | the iteration loop is unrolled by induction on the number of bits; each method's result is equivalent to a case table |
| C157 | Python program building a DataSet | every list of good `add` calls is a build history of the C++ DataSet; induction over the calls |
| C158 | Python program on a Discriminator | `train` calls contribute prefixes of what they ask for; history theorems C11-C18 carry over |
| C159, C160 | results handed back to Python as `str`, `dict`, lists; mental image given to a Synthesizer | ASCII/UTF-8 lemmas; composition of C86 with C66/C67 |
| C161-C164 | two Wisards fed with the same pictures in different notations (Spec/Recode: `Recoded`, `Faithful`) | the vote depends only on which images agree (`vote_congr`), applied through the score specification C73; wirings of two histories related by induction |
| C165, C166 | Discriminator and ClusWisard fed with the same pictures in two notations (Spec/Recode: `Twin`) | simulation (Lemmas/RecodeSim): RAMs that find the same coincidences among the related images stay so under every call |
| C167, C168 | Wisard: a history followed by trainings of one image with one label (`Repeats`) | the votes of that class rise by one per training, the others stay; an argument about the first unambiguous threshold over any ordered set of labels (Lemmas/Teach) |
| C169 | ClusWisard: one training with its own answer | without bleaching from `Learns` (C57): old discriminators keep what they know, so only class l or the old winner can win; with bleaching a counterexample |
| C170, C171 | votes and scores of two images that differ in some pixels (`touched`, `changed`, `ReadAtMost` in Spec/Noise) | a RAM whose pixels agree computes the same address; counting over RAMs and pixels; for the default wiring the permutation gives `ReadAtMost` |
| C172 | the program leaveOneOut, classify, train over all samples | untrain and train are inverse on the counters (`RamT.set` laws); the votes are those of the history without the sample |
| C173 | a Wisard and a ClusWisard given the same train calls (`TrainCall`, `SameOptions`, `OrderSafe` in Spec/Single) | lockstep invariant: every cluster has exactly the Wisard's discriminator; the vote table is renamed by l ↦ l::0, then the renaming lemmas of C112, C113 |
| C174 | `Cluster.getScore` with IEEE single precision (`Flt.single`), repeated training | sums of integers below 2^24 are exact, a quotient below 1 is at most 1 - 2^-24; induction over the trainings with the class's discriminators as invariant, each step by the specification `Learns` of C57; counterexample by evaluation at 3355445 and the least failing number |
| C175 | `ClusWisard.classify1`/`classify`, all calls (`cplay`) | the vote table of C83 is read off by name (`clus_votes`); the votes of one discriminator by C170_votes; C56_remembered for training images |
| C176 | `Cluster.train`, all calls (`cplay`), `ClusWisard.classify` | induction over the calls with the invariant "discriminator j of class l gives x at least these votes" (`AtLeast.closed`); winners by C39; isolation by C65; a concrete history for the need of bleaching off |
| C177 | `KernelCanvas.transform`, `Wisard.train`, `Wisard.classify` | C129 gives the pattern of each image, C73 and C48 the calls on it; pixels changed = bits · kernels changed by induction over the kernels, then C170 |
| C178 | the three `getsizeof` methods of wisard_bind.cc (`Model/PySize.lean`) | C150, C152, C158 turn programs into histories; C96, C97, C26 give the sizes; growth by induction over the history |
| C179 | `DataSet.get`/`getLabel`/`save`/`load`, `Wisard.trainDataSet`, `classify` | induction over the training loop; C07 for the reloaded data set |
| C180 | `leaveOneOut`, `leaveMoreOut`, `untrain` and `train(dataset)` as programs of Model/Threads | `C137_independent_partial`: calls that only look classes up use disjoint locations |
| C181 | ClusWisard construction and training with the generator of the process (Model/RandClus, function by function beside Model/ClusWisard) | every call equals the call of Model/ClusWisard for some random choices; `reseed` depends on the second only |
| C182 | construction, labelled, semi-supervised and unsupervised training of a ClusWisard as programs of Model/Threads; `operator[]` of a cluster's map is a write or a read as `Impl.bracketWrites` says | refinement to Model/RandClus (Lemmas/ThreadsClus); the labelled and the unsupervised half use disjoint locations; first writes meet for the races |
| C183 | Model/DataRefs: the arrays of the vectors of data sets, their capacities (any growth rule), references as array and position, programs with several variables | simulation with values (Spec/DataRefs); the program that keeps a reference over k calls of add is followed for every k |
| C184 | Model/KernelCanvas with abstract and IEEE doubles (Model/Double) | without ties the set of nearest kernels is unique; the fold of a permuted list; `transform` as a function of the sort (transform_picked) for the counterexample, whose sums are computed in the model |
| C185 | Model/KernelCanvas (IEEE), Model/ClusWisard | composition of C129 and C153; C175 in pixels: every discriminator of a valid history was made by the cluster (GoodD) and has the default wiring of C18 |
| C186 | Model/Double, Model/KernelCanvas | rounding commutes with powers of two on normal numbers (`rnd_scale`); invariant through sums, mean, squares, deviation: both values are multiples of a fixed power of two and differ by the factor; the factor cancels in the last quotient |
| C187 | Spec/Life | one induction for all three models (`live_ok`) over the steps of a life, with the contents in the text or in files at each reload, with the relation "same wiring, same contents up to the order of the tables" between the object that was never reloaded and the living one; calls keep it (C27, C33, C36), and what can be saved of one of two related objects can be saved of the other |
| C188 | Spec/Strict, Model/Bleaching | the threshold at which bleaching stops is the least one without ambiguity (C38); more confidence means more ambiguity, hence a later stop; counts at a higher threshold are not larger |
| C189 | Spec/Nested, Model/Synthesizer, Model/Wisard | the mental image counts k times the samples that have the pixel (C87); what is drawn are the pixels counted more often than a threshold; along a chain those are the pixels of one sample |
| C190 | Spec/DataLife, Model/DataSet | the induction over lives of C187 with the file of C07; the second save under one name by counting the separators in the file |
| C191 | Spec/Scramble, Model/Discriminator | the bijection of random sources is conjugation of the shuffle and renaming of the drawn pixels; wirings correspond, then C161; for ClusWisards a simulation (Lemmas/RecodeSim) whose two sides draw corresponding random numbers |
| C192 | Spec/Fair, Model/Rand | the remainders are recovered from the result, last swap first (induction on the loop of random_shuffle); then the tuples of the wiring are the chunks of the shuffled pixels |
| C193 | Spec/Scramble | the counts of C87 on both sides: wires and non-zero pixels correspond, so do legal histories |
| C194 | Spec/Selective (one wiring refines another) | votes are counts of agreeing calls (C11, C15); agreeing on more pixels implies agreeing on fewer, and in a legal history the calls in between count at least zero |
| C195 | none: the calls of the two histories are related by the function on labels | C106: a RAM of the merged class knows a pattern if and only if that RAM of one of the classes does; C87: the images of the merged class are those of the classes, counted by label |
| C196 | none: three models created with the same wiring | C22 and C17: votes and mental images count the history, and the net count of the two parts together is the sum of their net counts |
| C197 | Spec/Redundant: pixels that determine another among a set of images | C161 for Wisard, C22 for Discriminator: two images agree on the omitted pixels if and only if they agree on the others |
| C198 | none: three models with related wirings | C22, C17 and C106: votes, mental images and scores are lists or sums over the RAMs of the wiring |
| C199 | Spec/RamOrder: wirings with the same RAMs | C22, C17, C23: votes count agreement on a set of pixels; bleaching sees of the votes only how many reach each threshold |
| C200 | none: the training calls of the third history are those of the other two, permuted | C106: a RAM of the third knows a pattern if and only if that RAM of the first or of the second does |
| C94, C95 | keyword arguments | induction on the argument list; table facts |

Later properties (C96 on) are planned in the header comment of their file in `Props/` and listed in section 6.

Not expressible in this model, hence not listed as properties: quality of the randomness, running time and memory in bytes, weak memory: threads (C135-C138, C180, C182) are sequentially consistent interleavings of accesses to containers, map
entries, RAMs and members, and everything said about racing programs beyond the existence of the race assumes that.

## 4. Trusted base

* Lean 4.33 kernel. Axioms: only `propext`, `Classical.choice`, `Quot.sound`; per theorem below. No axioms of our own, no compiled
  evaluation.
* The reading of the C++ source recorded in the comments of `Model/*`.
* Platform: LP64 little-endian, `char` signed 8 bit, `int` 32 bit, `long long` 64 bit, `<<` and conversion of negative values as GCC and Clang
  define them, C locale for number printing.
* The C++ standard library behaves as the standard says.

### Not modelled

* IEEE details: the sign of zero, rounding modes other than to nearest, extended precision of x87; `tanh` of the C library beyond its range; overflow of `float` (C174_finite and C128_finite show that it cannot occur in the scores and degrees). NaN and infinite
  arguments are modelled in `Model/NanArgs.lean` only.
* `strtod` of the C library: only that it gives the nearest `double` is assumed (`Spec.ReadsNearest`); its locale is "C". Grisu2 is modelled (`Model/Grisu.lean`) except for negative zero.
* Texts of 2^31 bytes and more (`int` positions in Base64 and RAMDataHandle), nesting depth of JSON (stack), allocation failure.
* Int overflow of KernelCanvas direction indexes (they are below 3·amplifyDim, a number the modelled constructor has already computed in `int`).
* That the map returned by `BBleaching::make` is never freed; `searchBestConfidence` is modelled and proved to have no effect.
* pybind11: its conversions and overload resolution are modelled as documented (`Model/Bind.lean`, `Model/PyObjects.lean`, `PyCasts` elsewhere), not its code; reference counting, the GIL. (`RAMDataHandle.save` is not bound to Python.)

### Axioms each theorem depends on

<!-- axioms -->
* **Classical.choice, Quot.sound, propext** (504 theorems): C01_base64_empty, C01_base64_roundtrip, C02_base64_rfc4648, C03_bininput_of_list, C04_bininput_bit_array, C05_bininput_data_roundtrip, C06_set_any_value, C06_set_local_partial, C06_set_spills, C07_dataset_save_load, C08_dataset_append_only, C09_reload_undefined, C09_save_changes_labels, C09_save_keeps_labelled_partial, C100_clusWisard_partial, C101_cut_accepted, C101_cut_text_partial, C101_cut_undefined, C102_cut_file_partial, C102_cut_label_accepted, C102_cut_undefined, C103_cut_file_partial, C104_missing_data_files, C104_missing_model_file, C105_file_as_text, C105_save_load, C105_second_save, C106_score, C106_score_plain, C107_only_the_set_matters, C108_more_training, C109_new_classes, C10_distinct_prefixes_partial, C10_second_save_loses_an_entry, C110_repetition, C110_train_again, C112_order_kept, C113_any_renaming, C113_confidence_two, C114_clusWisard, C114_discriminator, C114_not_an_object, C114_wisard, C115_clusWisard, C115_discriminator, C115_text, C115_unknown_member, C115_wisard, C116_classify_clusWisard_partial, C116_classify_undefined, C116_classify_wisard_partial, C116_load_clusWisard_partial, C116_load_discriminator_partial, C116_load_undefined, C116_load_wisard_partial, C116_outside_wiring, C116_use_undefined, C118_same_second_canvas, C118_valid_wiring_partial, C118_wiring_never_drawn, C119_distinct_names_partial, C119_same_second_collision, C11_vote_counts_matching_images, C120_make_partial, C120_same_second, C122_clusWisard, C122_discriminator, C122_pretty_is_json, C122_pretty_roundtrip, C122_pretty_throws, C122_wisard, C123_clusWisard, C123_damage_is_local, C123_discriminator, C123_file_lost, C123_lost_class_scores_zero, C123_wisard, C124_no_dangling, C124_others, C124_values, C125_copies_partial, C125_copy_refuted, C125_copy_trains_original, C125_own_calls, C126_destroy_frees_nothing, C126_memory_given_back_refuted, C126_not_freed_in_use_partial, C126_unsupervised_refuted, C127_clusWisard_classify, C127_clusWisard_classifyUnsupervised, C127_clusWisard_pyClassify, C127_clusWisard_semi, C127_clusWisard_train, C127_wisard_classify, C127_wisard_pyClassify, C128_activation, C128_clusWisard, C128_degrees, C128_degrees_exact, C128_finite, C128_nearest, C128_strict, C128_wisard, C129_ieee, C12_accepted_no_collision_partial, C12_base2_limit, C12_limit_never_thrown, C130_numbers_partial, C130_refuted, C130_refuted_single, C131_degree_partial, C131_nan_class, C131_nan_train, C131_refuted_degree, C132_clusWisard, C132_discriminator, C132_wisard, C133_options_partial, C133_refuted, C134_make_partial, C134_refuted, C134_some_score_partial, C134_undefined, C135_every_world, C135_questions, C135_refines, C136_clus_mental, C136_influence, C136_lost, C136_twice, C137_constructors_refuted, C137_independent_partial, C137_random_refuted, C138_parallel_partial, C138_standard_refuted, C139_history, C139_loaded, C139_numbers, C139_succeeds, C139_train, C13_training_order_irrelevant, C140_known_class, C140_loaded, C140_new_class, C140_train, C141_class, C141_learns, C141_loaded, C141_something, C142_loaded, C142_returns, C143_everything_lost, C144_clusWisard, C144_discriminator, C144_wisard, C145_binInput, C145_clusWisard, C145_clusWisard_classify, C145_clusWisard_train, C145_clusWisard_unsupervised, C145_dataSet, C145_dataSet_new, C145_dataSet_save, C145_discriminator, C145_handle_new, C145_json, C145_kernelCanvas, C145_mapping, C145_mapping_accepted, C145_wisard, C145_wisard_classify, C145_wisard_leaveMoreOut, C145_wisard_leaveOneOut, C145_wisard_train, C146_binInput, C147_bytes_raise, C147_classes, C147_clusWisard, C147_clusWisard_decodes, C147_labels_come_back, C147_same_text, C148_distinct, C148_examples, C148_written, C149_clusWisard, C149_config, C149_discriminator, C149_normal_form, C149_parse_outcome, C149_read_back, C149_reread, C149_wisard, C14_untrain_undoes_train, C150_session, C151_program, C152_session, C153_all_trainings, C154_program, C155_refuted, C156_reported_partial, C157_program, C157_session, C158_program, C159_binInput, C159_clus_mental, C159_config, C159_handle, C159_label, C159_wisard_mental, C15_votes_any_history, C15_votes_are_trainings_minus_untrainings, C160_program, C161_coincidences, C161_recoding, C162_base, C162_values, C163_pixels, C164_unread, C165_discriminator, C166_base, C166_cluswisard, C167_reinforcement, C168_default_wiring, C168_needs_bleaching, C168_teachable, C169_refuted, C169_reinforcement_partial, C16_ignoreZero_only_silences_zero, C170_default, C170_noise, C170_pixels, C170_scores, C170_trained, C171_needs_plain, C171_stable, C172_back, C172_evaluation, C172_needs_other, C172_without, C173_digits, C173_results, C173_scores, C173_training, C174_finite, C174_needs_few, C174_needs_nonzero, C174_repeat, C174_score, C175_scores, C175_stable, C175_trained, C176_needs_plain, C176_scores, C176_takeover, C176_votes, C177_program, C177_similar, C178_clus, C178_growth, C178_program, C179_reload, C179_same, C17_mental_image_counts, C17_mental_image_history, C180_mixed, C180_parallel, C180_training_race, C181_few, C181_process, C181_repeated_wiring, C181_same_second, C182_alone, C182_classify_refuted, C182_constructors_refuted, C182_halves, C182_training_refuted, C182_unsupervised_next_to_questions, C182_unsupervised_refuted, C184_exact, C184_first_two, C184_order_partial, C184_refuted, C185_pixels, C185_program, C185_similar, C186_refuted, C186_units_partial, C187_clusWisard, C187_clusWisard_successful, C187_discriminator, C187_wisard, C188_answer_may_change, C188_clusWisard, C188_lax, C188_votes, C188_wisard, C189_common, C189_default, C189_nested, C18_default_wiring, C190_dataset, C190_one_file, C190_one_sample, C191_clusWisard, C191_discriminator, C191_scrambled, C192_shuffle, C192_wiring, C193_discriminator, C193_mental, C193_synthetic, C194_address_size, C194_recognised, C194_votes, C194_wisard, C195_mental, C195_merge, C196_mental, C196_votes, C197_votes, C197_wisard, C198_mental, C198_scores, C198_votes, C199_mental, C199_votes, C199_wisard, C19_indexes_partial, C19_negative_indexes_accepted, C200_scores, C20_bad_mapping_accepted, C20_inside_wiring_no_out_of_bounds_partial, C22_too_big_value_rejected_partial, C23_number_of_trainings, C25_bininput_and_list_interchangeable, C26_memory_accounting, C27_json_roundtrip, C28_untrained_huge_reload_throws, C28_untrained_reload_throws, C29_collision_returns_old_data, C29_fresh_file_roundtrip_partial, C30_handle_text_roundtrip, C31_compare_equivalence, C31_compare_iff_same, C32_data_diverges, C32_data_terminates_partial, C32_getAddr_changes_handle, C32_get_changes_handle, C33_huge_roundtrip, C33_json_roundtrip, C34_existing_wiring_kept_partial, C34_mapping_lost, C35_discriminator_reload_throws, C35_empty_wisard_reloads_partial, C35_wisard_reload_throws, C36_huge_roundtrip_partial, C36_json_roundtrip_partial, C36_successful_histories_partial, C36_unsupervised_base_refuted, C37_bound_attained, C37_overflow_attained, C37_overflow_iff, C37_terminates, C38_scores_at_least_threshold, C38_scores_confidence_one, C38_without_bleaching, C39_empty_answer, C39_winner, C40_unique_winner, C41_confidence_zero, C41_lead_partial, C41_margin_violated, C42_searchBestConfidence_no_effect, C42_searchBestConfidence_no_effect_model, C43_clear_win_kept, C44_trained_image_fully_active, C45_votes_of_own_history, C46_order_irrelevant, C46_order_irrelevant_mapping, C47_leaveOneOut_undoes_train, C48_one_known_label_per_image, C48_python_same_labels, C49_batch_validated_partial, C49_number_of_rams, C50_classify_empty_partial, C50_pyClassify_empty_ub, C52_activation_degree, C52_mapping_exceeds_one, C53_python, C54_confidence_partial, C54_python_partial, C54_python_tie, C54_tie_full_confidence, C55_at_least_one, C55_limit, C55_monotone, C56_counts, C56_remembered, C57_exact, C57_learns, C58_trained_label_partial, C58_unsafe_never, C59_actual, C59_documented_partial, C59_refuted, C59_refuted_concrete, C60_ignored_partial, C60_none_valid, C60_refuted, C60_too_many, C61_accumulates_partial, C61_forgets, C61_undefined, C62_classification_partial, C62_refuted, C64_refuted, C64_strict_partial, C65_independent, C65_isolation, C66_intensity, C66_make, C66_negative, C67_create_partial, C67_refuted, C68_empty, C68_shape, C69_nearest, C70_dim_one_partial, C70_refuted, C71_direction, C71_refuted, C71_too_long_partial, C73_valid_calls_succeed, C74_train_dataset, C75_valid_calls_succeed, C77_discriminators, C78_winner, C79_config_roundtrip, C80_shuffle_no_effect, C81_all_active_partial, C81_refuted, C81_refuted_single, C82_create_partial, C82_create_single_partial, C82_refuted, C82_refuted_direction, C82_refuted_single, C82_reject, C83_activation_degree, C83_classes_degrees_partial, C83_confidence_partial, C83_empty_ub, C83_fields, C83_refuted, C83_same_labels, C84_batch_validated_partial, C84_empty_ub, C84_number_of_rams, C85_limit, C85_tie_order, C85_winner, C86_mental_image, C86_mental_images, C87_mental_images, C87_trained, C88_classify, C88_inside, C88_train, C89_dump_iff, C89_dump_throws, C89_injective, C89_roundtrip, C90_normal_form, C90_parse_outcome, C90_parsed_value, C91_discriminator, C91_wisard, C91_wisard_huge, C91_wisard_label_throws, C92_truncated, C93_clusWisard_huge_partial, C93_clusWisard_label_throws, C93_clusWisard_partial, C94_kernelCanvas, C94_kernelCanvas_order, C95_clusWisard_indexes_ignored, C95_known_used_partial, C95_unknown_ignored, C96_discriminator, C96_growth, C96_wisard, C97_defined, C97_growth, C97_null, C97_size, C98_accepts_iff, C98_json_accepted, C98_nul_ends, C98_other_refused, C98_unambiguous, C99_discriminator, C99_dump_is_json, C99_wisard, std_reads
* **Quot.sound, propext** (87 theorems): C102_cut_positions, C102_unreadable, C103_cut_positions, C104_wrong_name_partial, C111_batch, C111_default_wiring_random, C111_discriminator, C111_wisard, C117_file_name, C117_random_string, C118_few_wirings, C118_process, C118_same_second, C118_same_second_wisard, C121_blind, C121_inside_partial, C121_one_position, C127_wisard_leaveMoreOut, C127_wisard_train, C127_wisard_trainDataSet, C131_minScore_partial, C131_refuted_minScore, C132_no_options, C135_train, C135_trainDataSet, C142_mental, C143_enough_room_partial, C143_silent, C143_silent_data, C145_binInput_data, C145_binInput_get, C145_binInput_set, C145_dataSet_get, C145_dataSet_getLabel, C145_discriminator_classify, C145_discriminator_train, C145_handle_data, C145_handle_get, C145_handle_set, C145_kernelCanvas_transform, C145_noArgs, C145_options, C145_synthesizer, C146_binInput_accepted, C146_empty_list, C146_images_partial, C147_str_labels, C155_values_partial, C156_get_undefined, C156_label_wraps, C158_session, C170_votes, C178_calls, C183_careful_partial, C183_python, C183_refuted, C183_unnoticed, C183_window, C189_needs_nesting, C189_needs_whole_rams, C197_constant, C197_copies, C21_wrong_length_rejected, C22_failed_train_changes_votes, C24_batch_is_sequence, C45_labels_isolated, C47_leaveMoreOut, C47_unknown_label_ignored, C48_classes_are_trained_labels, C49_mapping_not_counted, C50_train_empty_ub, C51_failing_batch_keeps_prefix, C53_classes_degrees, C62_json_refuted, C62_known_partial, C63_validation, C72_negative_value_accepted_and_aliases, C72_no_lower_bound_check_partial, C76_set_then_get, C90_parse_total, C92_prefix_same, C94_clusWisard, C94_clusWisard_order, C94_discriminator, C94_discriminator_order, C94_wisard, C94_wisard_order
* **none** (1 theorems): C95_wisard_names
* **propext** (4 theorems): C21_right_length_accepted, C32_reading_present_partial, C55_observable, C77_supervised
<!-- end axioms -->

## 5. Findings (faults of the code established by theorems)

* **Address size limit** (C12): for base ≠ 2 the check never throws and is signed overflow from base^n ≥ 2^63 on; base 2 throws for n > 64.
* **Wiring** (C19, C20): negative indexes are accepted; an out-of-range mapping is accepted and is undefined behaviour at the first train or classify.
* **train is not atomic** (C22): an image with a pixel ≥ base is counted and leaves the RAMs before it changed. **Negative pixels** are accepted and alias other images (C72).
* **BinInput.set** with a value outside {0,1} spills into neighbouring pixels (C06).
* **DataSet.save** turns missing labels into empty ones, an unlabelled data set cannot be loaded, saving twice corrupts the file (C09, C10).
* **Base64::decode("")** is undefined behaviour (C01), reached from an empty RAM.
* **Untrained discriminators** cannot be reloaded (C28); **jsonConfig** output cannot be reloaded when there is a class (C35); the **mapping** option is lost (C34).
* **json(huge=true)** appends to existing files, and the reload reads the older data (C29).
* **RAMDataHandle** reads insert; `data()` does not end with a negative key (C32).
* **Bleaching** with confidence ≥ 2 depends on the order of the labels (C41).
* **confidence** returned to Python is 1 on ties and 0/0 for score 0 (C54).
* **Empty batches** are undefined behaviour (C50, C83, C84).
* **ClusWisard**: labels with "::" or a final ":" are never returned (C58); semi-supervised training learns the wrong images (C59); label maps with an invalid key may be
  undefined behaviour (C60); unsupervised training forgets or is undefined (C61); getMentalImage of an unknown label damages the model (C62); threshold is not a bound (C64);
  unsupervised cluster reloaded with the wrong base (C36); degrees are per discriminator (C83); documented option `indexes` is ignored (C95).
* **Synthesizer**: blank mental image divides by zero (C67).
* **KernelCanvas**: useDirection with dimension ≥ 2 writes outside its buffer (C70); short points are read before the check (C71); degree 1 with more than 2^24 kernels (C81).
* **Cut files** (C101–C103): an image text, a data set file or a RAM file cut off by a crash is read as a shorter image, a wrong label, an image of 2^64 − 83 pixels
  or fewer RAMs, or is undefined behaviour; a **missing file** is read as an empty one (C104).
* A NUL byte ends a JSON text: whatever follows is ignored (C98).
* **Loading a document** (C116): a document is accepted with an index outside the input, with a RAM text whose length is not a multiple of 4 and so on; loading
  it, training it or classifying with it is then undefined behaviour. Bleaching a vote of 2^31 − 1 overflows its int threshold (C37_overflow_iff).
* **Random numbers** (C118–C121): constructors and `make` seed the generator from the clock: models created in the same second are wired alike,
  their data files get the same name and overwrite each other's meaning, all synthetic images of one second are equal; a RAM with random addresses
  reads a single pixel.
* **Copies of a ClusWisard** share their discriminators: training a copy trains the original (C125); **no discriminator of a ClusWisard is ever freed** (C126).
* `train(DataSet)` with verbose never ends its progress line (C127).
* **Unknown keyword arguments** are ignored (C95). Labels that are not UTF-8 cannot be saved (C91, C93).
- C130: a coordinate that is constant over the sequence (or a sequence of one point) has standard deviation 0, the normalised coordinate is 0/0 = NaN, no kernel is ever nearest by `<`, and the canvas output does not depend on the data.
- C131: `minScore = NaN` passes every range check of ClusWisard and every training image then gets a discriminator of its own; `activationDegree = NaN` passes the check of KernelCanvas and is converted to int (undefined).
- C82: with 2147483584 or more kernels (or useDirection and more than 238609294 dimensions) KernelCanvas overflows a conversion to int.
- C133: every construction of a KernelCanvas from C++ reads the member `dim`, which no constructor with these parameters sets.
- C134: BBleaching with all votes 0 or 1 (every image trained once) uses threshold 0: every class, trained or not, gets full score.
- C136: nothing in the library synchronises: two threads that train the same class can both succeed with one image forgotten; asking a ClusWisard for the mental image of an unknown class is a write.
- C137: two threads that construct models of their own have a data race, in the generator of the C library that every constructor seeds.
- C138: training different existing classes of one Wisard in parallel is safe with libstdc++, but not by the letter of the C++ standard.
* **Hand-written documents** (C141): with negative contents a ClusWisard may learn nothing from an image, silently; a threshold of 0 makes the limit NaN or
  infinite, so that an untrained discriminator never learns by its score.
* **Saving never fails** (C143): a file that cannot be opened or a full disk is silently ignored by `json(huge=true)`, `DataSet.save` and `RAMDataHandle.save`;
  the document then loads as a discriminator without RAMs.
* **Discriminator.train([])** from Python fails instead of training nothing; **BinInput** cannot be given to a Discriminator from Python at all if pybind11 takes
  objects with `__getitem__` for sequences (C146).
* **Labels as bytes** that are not UTF-8 are accepted, but then `classify` (C147) and `json` (C91) raise.
* **Iterating over a BinInput** in Python (`for b in x`, `list(x)`) always ends in an exception, because the out-of-range access is reported as RuntimeError and
  not IndexError (C155).
* **DataSet** from Python: `get` out of range is undefined behaviour, `getLabel` takes its index modulo 2^32 (C156).
* **KernelCanvas** takes two positional arguments; the documented `KernelCanvas(10,2,3)` is a TypeError (C145).

* **A ClusWisard can unlearn by training (C169).** With bleaching (the default), training an image with the label the model already answers can make it answer another label: the training opens a new discriminator that ties with the old one of the same class, bleaching takes this for an ambiguity and raises the threshold until both lose to another class (`C169_refuted`).
* **Without bleaching some images cannot be taught (C168).** A class with a greater label that knows the image blocks all smaller labels for it (`C168_needs_bleaching`).

* **With bleaching a full lead can rest on one pixel (C171).** After bleaching a class may have all RAMs and the others none; one changed pixel can still flip the answer (`C171_needs_plain`).
* **Leave-one-out keeps empty classes (C172).** Leaving out the only sample of a class leaves a class with no memory, which takes part in ties and can be answered: the evaluation of such a sample is not that of a model without it (`C172_needs_other`).

* **A ClusWisard orders its classes differently (C173).** It compares names such as 1::0 and 10::0, so 10 comes before 1: with numbers as labels a tie goes to another class than in a Wisard (`C173_digits`).

* **One image, two discriminators (C174).** After about 2^24 / number of RAMs trainings of one image, the float sum of the votes can fall below the float product in getScore: the image no longer reaches the score 1 and opens a second discriminator (`C174_needs_few`). With ignoreZero an image of zeros opens a new discriminator with each training until the limit (`C174_needs_nonzero`).

* **A constructor resets the wiring of other models (C181).** Making any Wisard or ClusWisard between two trainings in one second makes the two new classes of an existing ClusWisard read the same pixels (`C181_repeated_wiring`).
* **Questions to a ClusWisard race (C182).** `Cluster::classify` looks discriminators up with the non-const `operator[]`, so by the C++ standard two threads that only classify with one ClusWisard race (an earlier version of the model took that for a read; C135 was restated).
* **Dangling references (C183).** A `const BinInput&` from `DataSet::get` dangles after an `add` that replaces the array; with libstdc++ the first further `add` on a data set of one input does.
* **Order of points (C184).** `multDimMean` adds before it divides: 2^1023, 2^1023, -2^1023, -2^1023 have the mean infinity, and the same points alternately the mean 0; `transform` then compares NaNs in one order and numbers in the other.

* **Units (C186).** The output of `KernelCanvas.transform` does not depend on the units of the coordinates as long as they differ by powers of two; the sums of squares overflow for coordinates from about 2^500 on, and then every point is standardised to 0 although the same points in other units are not.

* **Confidence (C188).** A larger `confidence` does not make the answers more reliable: it can replace the class that beats all others by a class that was trained more often.

* **Generalisation of the synthesizer (C189).** It invents images only from samples that are not nested, and then also images that the class itself does not fully recognise; with an addressSize that does not divide the image it can even draw parts of the only sample.

* **Checkpoints of a data set (C190).** `save` appends: a program that saves its growing data set again and again under one name destroys it; the first damage can be silent.

## 6. Status

Every property with its theorems; the same data, machine readable, is in MANIFEST.json. Theorems were tested against wrong programs with
`seeded/mutate.py`; `seeded/LOG.jsonl` has one line per attempt.

<!-- status -->
| id | property | status | theorems | remarks |
|---|---|---|---|---|
| C01 | Base64 decoding inverts encoding | proved | C01_base64_roundtrip, C01_base64_empty | all byte strings; the empty string is shown to be UB on decode |
| C02 | Base64 output is RFC 4648 text and never contains the file separators | proved | C02_base64_rfc4648 | against an arithmetic RFC 4648 spec |
| C03 | A BinInput built from a 0/1 list returns that list | proved | C03_bininput_of_list | lists shorter than 2^62 |
| C04 | BinInput is a fixed-length bit array under any sequence of writes | proved | C04_bininput_bit_array | any write history |
| C05 | BinInput.data() round-trips | proved | C05_bininput_data_roundtrip |  |
| C06 | BinInput.set changes only the addressed position | partial | C06_set_local_partial, C06_set_spills, C06_set_any_value | false of the code for values outside {0,1}: refuted for every BinInput (C06_set_spills), full effect characterised (C06_set_any_value), true for 0/1 (C06_set_local_partial) |
| C07 | A labelled DataSet survives save and load | proved | C07_dataset_save_load |  |
| C08 | DataSet is an append-only list | proved | C08_dataset_append_only | out-of-range get is UB, as in the code |
| C09 | Saving a DataSet does not change it, and unlabelled or empty data sets can be reloaded | partial | C09_save_keeps_labelled_partial, C09_save_changes_labels, C09_reload_undefined | false of the code: save() turns missing labels into empty ones, and reloading unlabelled or empty data sets is UB; true for fully labelled ones |
| C10 | Saving twice under the same prefix keeps the data loadable | partial | C10_distinct_prefixes_partial, C10_second_save_loses_an_entry | false of the code: the file is opened for append without a separator; proved that a reload has one entry too few, and that different prefixes do not interfere |
| C11 | A RAM's vote counts exactly the matching trained images | proved | C11_vote_counts_matching_images | all images, wirings, bases, option values; up to 2^31-1 trainings (int counters) |
| C12 | Address sizes that do not fit 64 bits are rejected | partial | C12_accepted_no_collision_partial, C12_base2_limit, C12_limit_never_thrown | accepted RAMs never collide and base 2 is limited exactly; the exception is never thrown for base >= 3, where too large sizes are UB (signed overflow): the property is false of the code there |
| C13 | Training order does not matter to a discriminator | proved | C13_training_order_irrelevant |  |
| C14 | untrain undoes train | proved | C14_untrain_undoes_train | votes and counts from any history, mental images from any history that untrains no image more often than it was trained |
| C15 | Votes under training and untraining histories | proved | C15_votes_are_trainings_minus_untrainings, C15_votes_any_history |  |
| C16 | ignoreZero silences only the all-zero pattern | proved | C16_ignoreZero_only_silences_zero |  |
| C17 | Mental image counts trained non-zero pixels | proved | C17_mental_image_counts, C17_mental_image_history | any iteration order of the hash table; values must fit an int |
| C18 | Default wiring covers the input | proved | C18_default_wiring | every outcome of rand() and random_shuffle |
| C19 | A list of indexes is validated and used in order | partial | C19_indexes_partial, C19_negative_indexes_accepted | negative indexes are accepted (refuted for every entry size); the rest is proved |
| C20 | No out-of-range read for in-range wiring; out-of-range wiring is rejected | partial | C20_inside_wiring_no_out_of_bounds_partial, C20_bad_mapping_accepted | first half proved; second half refuted for every out-of-range mapping |
| C21 | An image of the wrong length is rejected and changes nothing | proved | C21_wrong_length_rejected, C21_right_length_accepted | every state |
| C22 | A value not smaller than base is rejected | partial | C22_too_big_value_rejected_partial, C22_failed_train_changes_votes | rejection proved; a failed train increments the count in every state (proved) and may change votes (witness): not atomic |
| C23 | Number of trainings | proved | C23_number_of_trainings |  |
| C24 | Batch training equals one-by-one training | proved | C24_batch_is_sequence | every state |
| C25 | BinInput and list images are interchangeable | proved | C25_bininput_and_list_interchangeable | every state |
| C26 | Memory accounting | proved | C26_memory_accounting | every state, also for failing calls |
| C27 | A trained discriminator survives json() | proved | C27_json_roundtrip | for every discriminator that learnt at least one image, after any history of (also failing) calls; the text must stay below 2^31 bytes. Here at the level of JSON values; C91 is the same for the text itself. |
| C28 | An untrained discriminator survives json() | partial | C28_untrained_reload_throws, C28_untrained_huge_reload_throws | false of the code: refuted for every untrained discriminator, with and without huge |
| C29 | json(huge=true) round-trips through files | partial | C29_fresh_file_roundtrip_partial, C29_collision_returns_old_data | proved for a file name that does not exist yet; false when the name exists (append): the reload then returns the older data |
| C30 | RAMDataHandle text round-trips | proved | C30_handle_text_roundtrip | text below 2^31 bytes |
| C31 | RAMDataHandle.compare is equality of contents | proved | C31_compare_iff_same, C31_compare_equivalence |  |
| C32 | Reading a RAMDataHandle does not change it, and data() terminates | partial | C32_reading_present_partial, C32_data_terminates_partial, C32_get_changes_handle, C32_getAddr_changes_handle, C32_data_diverges | false of the code: reading an absent RAM or address inserts it, data() does not end with a negative index; true for present ones |
| C33 | A Wisard survives json() | proved | C33_json_roundtrip, C33_huge_roundtrip | for labels that exist or are not named by the mapping option (see C34); also through files (huge=true) that did not exist before |
| C34 | Reloading a Wisard keeps the user's mapping option | partial | C34_existing_wiring_kept_partial, C34_mapping_lost | false of the code: the mapping option is not saved; existing classes keep their wiring |
| C35 | jsonConfig output can be reloaded | partial | C35_empty_wisard_reloads_partial, C35_discriminator_reload_throws, C35_wisard_reload_throws | false of the code: reload throws for every discriminator and every Wisard with a class; works for a Wisard without classes |
| C36 | A ClusWisard survives json() | partial | C36_json_roundtrip_partial, C36_successful_histories_partial, C36_huge_roundtrip_partial, C36_unsupervised_base_refuted | Full round trip (indistinguishable under any further training and queries) for every history whose clusters can be saved; proved to include every history of successful training calls when base = 2 or without unsupervised training; in memory and through files. False as stated: with base != 2 the unsupervised cluster is reloaded with a different base (refuted concretely). Clusters holding a discriminator none of whose trainings succeeded, or inserted by getMentalImage, cannot be saved. |
| C37 | Classification terminates | proved | C37_terminates, C37_bound_attained, C37_overflow_iff, C37_overflow_attained | every vote table; bound largest vote + 1 rounds, and it is attained C37_overflow_iff says exactly when the counter overflows (undefined behaviour); C37_overflow_attained gives such votes. |
| C38 | Bleaching returns the activation counts at the first adequate threshold | proved | C38_scores_at_least_threshold, C38_scores_confidence_one, C38_without_bleaching |  |
| C39 | The winner has maximal score, ties go to the greatest label | proved | C39_winner, C39_empty_answer |  |
| C40 | With confidence 1 bleaching stops only at a unique winner or when no class scores above 1 | proved | C40_unique_winner |  |
| C41 | With confidence c the winner leads by c | partial | C41_lead_partial, C41_margin_violated, C41_confidence_zero | false of the code for c>=2: the check depends on the order of the labels (C41_margin_violated is a witness); the guaranteed lead is proved |
| C42 | searchBestConfidence has no effect on the result | proved | C42_searchBestConfidence_no_effect, C42_searchBestConfidence_no_effect_model |  |
| C43 | Bleaching never overturns a clear win | proved | C43_clear_win_kept |  |
| C44 | A trained image fully activates its class | proved | C44_trained_image_fully_active |  |
| C45 | Labels are isolated | proved | C45_labels_isolated, C45_votes_of_own_history |  |
| C46 | Wisard training order does not matter | proved | C46_order_irrelevant, C46_order_irrelevant_mapping |  |
| C47 | leaveOneOut undoes train and ignores unknown labels | proved | C47_leaveOneOut_undoes_train, C47_unknown_label_ignored, C47_leaveMoreOut |  |
| C48 | classify returns one known label per image, in order | proved | C48_one_known_label_per_image, C48_classes_are_trained_labels, C48_python_same_labels |  |
| C49 | Batch arguments are validated before training | partial | C49_batch_validated_partial, C49_number_of_rams, C49_mapping_not_counted | with the mapping option the confidence check counts RAMs the class does not have (C49_mapping_not_counted); otherwise proved |
| C50 | Empty batches are harmless | partial | C50_classify_empty_partial, C50_train_empty_ub, C50_pyClassify_empty_ub | classify from C++ is harmless; train and Python classify on an empty list are undefined behaviour (proved) |
| C51 | A failing batch keeps the images before the failure | proved | C51_failing_batch_keeps_prefix |  |
| C52 | activationDegree is a fraction of the RAMs | proved | C52_activation_degree, C52_mapping_exceeds_one | exact fractions; fails outside default wiring (C52_mapping_exceeds_one) |
| C53 | classesDegrees is a distribution over the classes | proved | C53_classes_degrees, C53_python | exact fractions |
| C54 | returned confidence reflects the lead over the runner-up | partial | C54_confidence_partial, C54_python_partial, C54_tie_full_confidence, C54_python_tie | false for ties (confidence 1 instead of 0) and for best score 0 (0/0); proved for a positive unique best score |
| C55 | A cluster never exceeds its discriminator limit | proved | C55_limit, C55_at_least_one, C55_monotone, C55_observable | Any history, failing calls included, any float rounding. C55_observable ties the number of discriminators to the number of mental images. |
| C56 | No training image is dropped by a cluster | proved | C56_counts, C56_remembered | C56_remembered also shows that the image is remembered after any later calls. |
| C57 | Which discriminators learn an image | proved | C57_learns, C57_exact | Learns is in Spec/Cluster.lean; C57_exact instantiates score and required score in exact arithmetic. |
| C58 | ClusWisard classify returns trained labels | partial | C58_trained_label_partial, C58_unsafe_never | Holds for labels without '::' that do not end in ':'. False otherwise: C58_unsafe_never proves such a label is never returned. |
| C59 | Semi-supervised training learns exactly the unlabelled images without labels | partial | C59_documented_partial, C59_actual, C59_refuted, C59_refuted_concrete | The code violates the documented behaviour (cluswisard.cc:117-120 trains images[i] instead of images[labelless[i]]). C59_actual is the exact behaviour for every batch; C59_documented_partial: it is the documented one when the images without label are the first ones; C59_refuted: otherwise the result does not depend on the unlabelled image at all. |
| C60 | Labels for indexes outside the batch are rejected | partial | C60_too_many, C60_none_valid, C60_ignored_partial, C60_refuted | More labels than images throw, no valid index throws, an invalid index is ignored unless there are as many labels as images; in that last case the call is undefined behaviour (C60_refuted). |
| C61 | Unsupervised training accumulates | partial | C61_accumulates_partial, C61_forgets, C61_undefined | Accumulates only when supervised classes exist and the cluster was initialised before; without supervised classes each call forgets the previous one (C61_forgets), and with supervised classes and no earlier unsupervised training it is undefined (C61_undefined). |
| C62 | Asking for a mental image does not change the model | partial | C62_known_partial, C62_classification_partial, C62_refuted, C62_json_refuted | Holds for known labels, and for classification; for an unknown label an uninitialised cluster is inserted and later training with this label is undefined (C62_refuted). After getMentalImage of an unknown label json() has no defined result. |
| C63 | Constructor arguments are validated | proved | C63_validation |  |
| C64 | threshold bounds what a discriminator learns | partial | C64_strict_partial, C64_refuted | False as documented: the only discriminator allowed learns every image whatever the threshold (C64_refuted). What holds: a discriminator with threshold examples requires score 1. |
| C65 | ClusWisard labels are isolated | proved | C65_isolation, C65_independent |  |
| C66 | Synthetic images follow the mental image | proved | C66_make, C66_intensity, C66_negative | make() for every draw; negative pixels (untrained below zero) always come out 1. |
| C67 | Synthesizing from a blank mental image is safe | partial | C67_create_partial, C67_refuted | False: make() on a blank mental image divides by zero (randint(0,-1) modulo 0). Construction itself is safe. |
| C68 | KernelCanvas output shape | proved | C68_shape, C68_empty | For canvases without useDirection or of dimension 1 (otherwise C70_refuted), numberOfKernels exact in float (otherwise C81_refuted), output below 2^31 entries; the lower bound needs a non-empty sequence. |
| C69 | KernelCanvas activates the nearest kernels | proved | C69_nearest | Same hypotheses as C68. |
| C70 | useDirection stays within its buffers | partial | C70_dim_one_partial, C70_refuted | False for every dimension above 1 and every non-empty sequence; holds in dimension 1. |
| C71 | Points of the wrong dimension are rejected | partial | C71_too_long_partial, C71_direction, C71_refuted | False for short points (read before the check); long points are rejected. |
| C72 | Negative pixel values are rejected | partial | C72_no_lower_bound_check_partial, C72_negative_value_accepted_and_aliases | false of the code: refuted |
| C73 | Valid calls on a default-wired model always succeed | proved | C73_valid_calls_succeed |  |
| C74 | Training on a DataSet equals training on its labelled images in order | proved | C74_train_dataset |  |
| C76 | RAMDataHandle set and get agree | proved | C76_set_then_get |  |
| C78 | ClusWisard classify returns the class of the strongest discriminator | proved | C78_winner |  |
| C75 | Well-formed ClusWisard calls always succeed | proved | C75_valid_calls_succeed |  |
| C77 | A cluster's discriminators are ordinary discriminators trained with images of the class | proved | C77_discriminators, C77_supervised | All histories; for semi-supervised calls the images are those the code actually gives to the class. |
| C79 | A ClusWisard's configuration can be reused | proved | C79_config_roundtrip | searchBestConfidence is not saved; it has no effect. |
| C80 | Synthesizer construction randomness never shows | proved | C80_shuffle_no_effect |  |
| C81 | Activation degree 1 activates every kernel | partial | C81_all_active_partial, C81_refuted, C81_refuted_single | False when float rounds the number of kernels up (16777219 with IEEE floats); proved when the number is exact in float. |
| C82 | KernelCanvas rejects exactly the invalid parameters | partial | C82_create_partial, C82_create_single_partial, C82_reject, C82_refuted, C82_refuted_single, C82_refuted_direction | False of the code from 2147483584 kernels on (the float 2147483648 is converted to int) and for useDirection above dimension 238609294 (int overflow); everything below is proved. |
| C83 | ClusWisard.classify in Python returns what the options ask for | partial | C83_same_labels, C83_fields, C83_activation_degree, C83_classes_degrees_partial, C83_confidence_partial, C83_refuted, C83_empty_ub | classesDegrees and confidence are per discriminator, not per class (C83_refuted); empty list is UB (C83_empty_ub). The rest is proved. |
| C84 | ClusWisard rejects inconsistent batches before training | partial | C84_batch_validated_partial, C84_number_of_rams, C84_empty_ub | Empty batch is UB (C84_empty_ub). |
| C85 | classifyUnsupervised returns the number of the best discriminator | proved | C85_winner, C85_limit, C85_tie_order |  |
| C86 | ClusWisard mental images count the learned images | proved | C86_mental_image, C86_mental_images | Values that fit an int, addresses below 2^31. |
| C87 | Wisard mental images count the learned images of each class | proved | C87_mental_images, C87_trained | Values that fit an int, addresses below 2^31. |
| C88 | Data sets and lists of 0/1 pixels are interchangeable for Wisard | proved | C88_inside, C88_train, C88_classify | Non-empty labels, lists shorter than 2^62. |
| C89 | A JSON text means the value it was made from | proved | C89_roundtrip, C89_dump_iff, C89_dump_throws, C89_injective | Conversion of floats to text and back is a parameter (FloatText) with the stated contract FloatOk. |
| C90 | Parsing is total and safe | proved | C90_parse_total, C90_parse_outcome, C90_parsed_value, C90_normal_form | Stack depth is outside the model; float conversion is a parameter that is right for what it reads. |
| C91 | Saving a model as text and loading the text gives the same model | proved | C91_discriminator, C91_wisard, C91_wisard_huge, C91_wisard_label_throws | Text of each RAM below 2^31 bytes. Labels of an unsaved mapping option are excluded in the statement (C34). |
| C92 | A truncated JSON text is detected | proved | C92_truncated, C92_prefix_same |  |
| C93 | Saving a ClusWisard as text and loading the text gives the same model | partial | C93_clusWisard_partial, C93_clusWisard_huge_partial, C93_clusWisard_label_throws | The cases where C36 fails (unsupervised training with a base other than 2, uninitialised clusters left by getMentalImage) are excluded. |
| C94 | Keyword options of the Python constructors have the values given | proved | C94_wisard, C94_wisard_order, C94_clusWisard, C94_clusWisard_order, C94_discriminator, C94_discriminator_order, C94_kernelCanvas, C94_kernelCanvas_order | What pybind11's cast accepts is a parameter (PyCasts). |
| C95 | No keyword option is silently ignored | partial | C95_known_used_partial, C95_unknown_ignored, C95_wisard_names, C95_clusWisard_indexes_ignored | Refuted: unknown names are ignored by every constructor, and so is ClusWisard's documented option indexes. What holds: known options are used or refused. |
| C96 | getsizeof counts every learnt pattern once | proved | C96_discriminator, C96_wisard, C96_growth | sizeof of the classes are parameters. |
| C97 | getsizeof of a ClusWisard | proved | C97_size, C97_defined, C97_growth, C97_null | sizeof of the classes are parameters. C97_null: a null pointer is left when the constructor of a discriminator throws after the left-hand side of the assignment was evaluated (allowed before C++17). |
| C98 | The constructors read exactly RFC 8259 | proved | C98_accepts_iff, C98_json_accepted, C98_unambiguous, C98_other_refused, C98_nul_ends | Grammar: Spec/JsonGrammar. strtod is the parameter FloatText; nesting depth unlimited. |
| C99 | Saved models are JSON and survive reformatting | proved | C99_dump_is_json, C99_discriminator, C99_wisard | Trained models within the size limits of C27 and C33. |
| C100 | Saved ClusWisards are JSON and survive reformatting | partial | C100_clusWisard_partial | Missing: the ClusWisards that C36 shows cannot be loaded again (their text is still JSON by C99_dump_is_json). |
| C101 | A cut image text is refused | partial | C101_cut_text_partial, C101_cut_accepted, C101_cut_undefined | False: a cut at a multiple of four characters is accepted as a shorter image (exact description in C101_cut_text_partial: it is a prefix of the pixels), every other cut is undefined behaviour. |
| C102 | A data set file cut off by a crash is refused or loads the complete records | partial | C102_cut_file_partial, C102_cut_positions, C102_cut_label_accepted, C102_cut_undefined, C102_unreadable | False: complete description of what every cut does. Records before the cut are loaded unchanged; the record cut is loaded with a shortened label or image, or loading is undefined behaviour. |
| C103 | A cut RAM file of a saved discriminator is detected | partial | C103_cut_file_partial, C103_cut_positions | False: for every byte of the file, exactly which cuts throw (within the first six bytes of a RAM), are undefined behaviour, or are loaded with RAMs and entries missing; the votes of the loaded discriminator are never higher. |
| C104 | A missing file is detected | partial | C104_wrong_name_partial, C104_missing_model_file, C104_missing_data_files | False: a missing file is read as an empty one. Only a name without the suffix throws (DataSet). |
| C105 | RAMDataHandle survives save and load through a new file | proved | C105_save_load, C105_file_as_text, C105_second_save | Files and texts shorter than 2^31 bytes. C105_second_save: saving under a prefix already used appends, and the file then holds n1 + n2 - 1 RAMs, so the file must be new. |
| C106 | A score counts the RAMs that know the image's pattern | proved | C106_score, C106_score_plain | Valid images, fewer than 2^31 calls; the score (Spec.knownBy in Props/Semantics) is defined by counting images. |
| C107 | Without bleaching only the set of training images matters | proved | C107_only_the_set_matters | Same wiring on both sides (C111 says when it is the same). |
| C108 | Without bleaching, more training never lowers a score | proved | C108_more_training |  |
| C109 | A new class only takes images over | proved | C109_new_classes |  |
| C110 | Repeating the whole training set changes nothing | proved | C110_repetition, C110_train_again | At most 2^31-3 trainings. |
| C111 | Models with a given wiring are reproducible | proved | C111_wisard, C111_batch, C111_discriminator, C111_default_wiring_random | Same compiled program on both sides (evaluation order). The last theorem shows the condition is needed. ClusWisard has no such option (C95). |
| C112 | Labels are opaque names | proved | C112_order_kept |  |
| C113 | Names only decide ties | proved | C113_any_renaming, C113_confidence_two | C113_confidence_two: the limit on the confidence is needed (cf. C41). |
| C114 | What a JSON document means | proved | C114_discriminator, C114_wisard, C114_clusWisard, C114_not_an_object | Equivalence with Spec.DiscReads / WisardDoc / ClusDoc (Spec/LoadJson). The members of classes/clusters must be in key order, as they are in every parsed document (std::map). |
| C115 | Only the named members of a document matter | proved | C115_discriminator, C115_wisard, C115_clusWisard, C115_unknown_member, C115_text |  |
| C116 | Loading and using a document is memory-safe | partial | C116_load_discriminator_partial, C116_load_wisard_partial, C116_load_clusWisard_partial, C116_classify_wisard_partial, C116_classify_clusWisard_partial, C116_outside_wiring, C116_load_undefined, C116_use_undefined, C116_classify_undefined | False in general (last four theorems): wires outside the images, data parts of a wrong length, floating numbers outside int, huge powers of base, contents near INT_MAX, base 0 are not checked. Proved: loading has no undefined behaviour if these numbers fit and the data parts have lengths divisible by 4 (everything else in the document is arbitrary); classifying has none if the wires are inside and contents at most 2147483645. |
| C117 | Data files have well-formed names | proved | C117_random_string, C117_file_name | The digit 9 is never used (off by one in the size of the alphabet). |
| C118 | Models are wired independently at random | partial | C118_valid_wiring_partial, C118_process, C118_same_second, C118_same_second_wisard, C118_same_second_canvas, C118_few_wirings, C118_wiring_never_drawn | False of the code: every constructor seeds the generator from the clock, so models created in the same second with the same arguments have the same wiring, at most 100001 wirings of a discriminator exist and from 9 pixels on some wirings never occur. Proved: the wiring is always valid. C118_process ties the processes with one shared generator to the model with arbitrary random choices used everywhere else. |
| C119 | Discriminators saved under one path do not disturb each other | partial | C119_distinct_names_partial, C119_same_second_collision | False of the code: the file name is drawn from the generator seeded by the constructor, so it is the same for discriminators created in the same second. Proved when the names differ. |
| C120 | Synthetic images are drawn anew | partial | C120_make_partial, C120_same_second | False of the code: make seeds the generator from the clock, so all images of one second are equal. |
| C121 | A RAM with random addresses reads its whole address | partial | C121_inside_partial, C121_one_position, C121_blind | False of the code: randint seeds the generator for every address, so all addresses are the same position. |
| C122 | jsonConfig() returns indented JSON of the configuration | proved | C122_pretty_is_json, C122_pretty_throws, C122_pretty_roundtrip, C122_discriminator, C122_wisard, C122_clusWisard |  |
| C123 | Loading reads only the files the document names | proved | C123_discriminator, C123_wisard, C123_damage_is_local, C123_file_lost, C123_lost_class_scores_zero, C123_clusWisard | A lost file is loaded silently as a class without RAMs whose score is always 0. |
| C124 | ClusWisard objects do not share state | proved | C124_values, C124_others, C124_no_dangling | Refinement from a heap of discriminators behind raw pointers to plain values, for histories without copies of the C++ object; no pointer dangles in any history. |
| C125 | A copy of a ClusWisard is independent | partial | C125_copies_partial, C125_own_calls, C125_copy_trains_original, C125_copy_refuted | False of the code: a copy shares the discriminators of the original, training the copy trains the original. Holds when the copied object has no discriminators. |
| C126 | Destroying a ClusWisard gives its memory back | partial | C126_not_freed_in_use_partial, C126_destroy_frees_nothing, C126_memory_given_back_refuted, C126_unsupervised_refuted | False of the code: no destructor deletes a discriminator, memory grows without bound, also by repeated trainUnsupervised. What holds: nothing is freed while in use. |
| C127 | verbose only prints | proved | C127_wisard_train, C127_wisard_trainDataSet, C127_wisard_leaveMoreOut, C127_wisard_classify, C127_wisard_pyClassify, C127_clusWisard_train, C127_clusWisard_semi, C127_clusWisard_classify, C127_clusWisard_classifyUnsupervised, C127_clusWisard_pyClassify |  |
| C128 | Returned degrees are correctly rounded | proved | C128_nearest, C128_strict, C128_wisard, C128_clusWisard, C128_degrees, C128_degrees_exact, C128_activation, C128_finite | IEEE binary32 rounding is defined and proved to be to nearest. C128_finite shows that the sums cannot overflow. |
| C129 | KernelCanvas in IEEE arithmetic | proved | C129_ieee | IEEE binary64 operations and the order laws are defined and proved; tanh is any function with values in [-1,1]. Without useDirection, or in dimension 1 (C70). |
| C130 | A constant coordinate does not spoil transform | partial | C130_numbers_partial, C130_refuted, C130_refuted_single | False of the code: deviation 0 gives 0/0 = NaN, every distance is NaN and the output does not depend on any coordinate. Exactly characterised for doubles within 2^480. |
| C131 | Float arguments that are not numbers are rejected | partial | C131_minScore_partial, C131_refuted_minScore, C131_nan_train, C131_nan_class, C131_degree_partial, C131_refuted_degree | False of the code: NaN is accepted. With a NaN minScore every image gets its own discriminator up to the limit; a NaN activationDegree is converted to int (UB). |
| C132 | C++ and Python constructors agree | proved | C132_wisard, C132_clusWisard, C132_discriminator, C132_no_options | What pybind11 converts is a parameter (PyCasts); options are compared by the value they mean. |
| C133 | C++ and Python constructors of KernelCanvas agree | partial | C133_options_partial, C133_refuted | False of the code: the constructor never sets the member dim and reads it, so no C++ construction is defined. The options are read like those of Python. |
| C134 | Binary bleaching | partial | C134_make_partial, C134_some_score_partial, C134_refuted, C134_undefined | False of the code: the threshold is 0 when no vote is above 1, and from votes of 2^30 on the power of two may overflow int. Proved below 2^30: at most 29 rounds, exact thresholds, never above the largest vote. The returned map is never freed (not modelled). |
| C135 | Questions from several threads | proved | C135_questions, C135_refines, C135_every_world, C135_train, C135_trainDataSet | Sequentially consistent interleavings of the accesses to containers, entries and members; that the accesses do what the calls do in the other modules is proved (C135_refines). Classification with a ClusWisard looks its discriminators up with operator[] of std::map, hence the condition; without it see C182. Not in the threaded model: output with verbose, copies, JSON, changes of a DataSet. |
| C136 | Calls that affect each other need synchronisation | proved | C136_influence, C136_twice, C136_lost, C136_clus_mental | For all calls of the threaded model and all states. The Python module keeps the GIL during calls, so this concerns C++. |
| C137 | Threads with models of their own do not disturb each other | partial | C137_independent_partial, C137_constructors_refuted, C137_random_refuted | False of the code: constructors and random wiring use the generator of the C library, which all models share. Proved if at most one thread uses random numbers. |
| C138 | Classes of one Wisard can be trained in parallel | partial | C138_parallel_partial, C138_standard_refuted | By the C++ standard operator[] of std::map is a modification, hence a data race; proved for implementations where it only searches an existing key, such as libstdc++. |
| C139 | A discriminator in any state | proved | C139_history, C139_train, C139_numbers, C139_succeeds, C139_loaded |  |
| C140 | A Wisard in any state | proved | C140_known_class, C140_train, C140_new_class, C140_loaded |  |
| C141 | A ClusWisard in any state | proved | C141_learns, C141_class, C141_something, C141_loaded | C141_class is for thresholds other than 0; C141_learns covers threshold 0 for one cluster, with the float operations of Model/NanArgs.lean. |
| C142 | The mental image of a discriminator in any state | proved | C142_mental, C142_returns, C142_loaded |  |
| C143 | A save that could not be written is reported | partial | C143_enough_room_partial, C143_silent, C143_silent_data, C143_everything_lost | False of the code: on every disk the reply is the one of a save without failures (C143_silent, C143_silent_data), and if nothing could be written the loaded discriminator has no RAMs and no votes, without any error (C143_everything_lost). What holds: with enough room the save is complete (C143_enough_room_partial). |
| C144 | An interrupted save harms nothing that was saved before | proved | C144_discriminator, C144_wisard, C144_clusWisard |  |
| C145 | A Python call reaches the library with the values given, or fails without effect | proved | C145_binInput, C145_dataSet, C145_discriminator, C145_discriminator_train, C145_discriminator_classify, C145_wisard, C145_wisard_train, C145_wisard_classify, C145_wisard_leaveOneOut, C145_wisard_leaveMoreOut, C145_clusWisard, C145_clusWisard_train, C145_clusWisard_unsupervised, C145_clusWisard_classify, C145_handle_get, C145_handle_set, C145_json, C145_options, C145_mapping, C145_mapping_accepted, C145_binInput_get, C145_binInput_set, C145_binInput_data, C145_dataSet_new, C145_dataSet_get, C145_dataSet_getLabel, C145_dataSet_save, C145_kernelCanvas, C145_kernelCanvas_transform, C145_synthesizer, C145_handle_new, C145_handle_data, C145_noArgs | The conversions are those documented for pybind11 (trusted, Model/Bind.lean, Model/PyObjects.lean). getsizeof, RAMDataHandle.save and ClusWisard.getMentalImage (C152) are not restated. |
| C146 | Discriminator.train accepts what C++ accepts | partial | C146_images_partial, C146_empty_list, C146_binInput, C146_binInput_accepted | False of the code: C146_empty_list and, if objects with __getitem__ count as sequences (PySequence_Check), C146_binInput. What holds: non-empty lists (C146_images_partial). |
| C147 | Labels come back as given | proved | C147_labels_come_back, C147_same_text, C147_classes, C147_str_labels, C147_bytes_raise, C147_clusWisard, C147_clusWisard_decodes | For ClusWisard the labels must not contain '::' or end in ':'; without that they still arrive as str (C147_clusWisard_decodes). |
| C148 | Every double is written | proved | C148_written, C148_distinct, C148_examples | Grisu2 is modelled with its wrap-around arithmetic and asserts (Model/Grisu.lean); negative zero is not distinguished from zero. |
| C149 | A double that is saved is loaded as the same double | proved | C149_read_back, C149_reread, C149_parse_outcome, C149_normal_form, C149_discriminator, C149_wisard, C149_clusWisard, C149_config, std_reads | strtod is any function satisfying ReadsNearest (std_reads: the correctly rounding one does). C149_clusWisard has the hypotheses under which C36 holds. |
| C150 | A Python program is a history of trainings | proved | C150_session |  |
| C151 | A correct Python program never fails and what it saves can be loaded | proved | C151_program | Hypotheses: options usable (base >= 2, base^A < 2^63, confidence at most the number of RAMs), text shorter than 2^31. |
| C152 | A Python program on a ClusWisard performs exactly what its calls ask for | proved | C152_session | AsksFor is the specification of a call; asks_unique: at most one C++ call. |
| C153 | Valid trainings of all three kinds succeed | proved | C153_all_trainings | The order condition is necessary (C61_undefined). |
| C154 | A correct Python program on a ClusWisard never fails and what it saves can be loaded | proved | C154_program | json() uses the Grisu2 writer and any correctly rounding strtod; base 2 with unsupervised training is necessary (C36_unsupervised_base_refuted). |
| C155 | Iterating over a BinInput from Python | partial | C155_values_partial, C155_refuted | False: after the last bit b[i] raises RuntimeError instead of IndexError (Exception derives from std::exception), so list(b) and for loops always raise. Proved: the values handed out before are the bits. |
| C156 | Indexes out of range are reported to Python | partial | C156_reported_partial, C156_get_undefined, C156_label_wraps | False for DataSet.get (undefined behaviour outside the data set) and for getLabel of indexes from 2^32 on (taken modulo 2^32). Proved for BinInput and for getLabel below 2^31. |
| C157 | A data set built in Python | proved | C157_session, C157_program | Lists are shorter than 2^62 (no Python list is longer). |
| C158 | Python programs on a Discriminator | proved | C158_session, C158_program | The size condition keeps the text below the 2^31 limit of the decoder; conditions on the options as in C18. |
| C159 | Results that hold text arrive in Python | proved | C159_binInput, C159_handle, C159_label, C159_config, C159_wisard_mental, C159_clus_mental | RAMDataHandle: with the RAMs 0..n-1, none empty (otherwise see C30-C32). |
| C160 | From training data to synthetic images | proved | C160_program | Conditions: as C151, and base^A <= 2^31, (n+A)*images < 2^31 so that the counts fit an int. |
| C161 | Only coincidences between pixels matter | proved | C161_coincidences, C161_recoding |  |
| C162 | Pixel values are only names | proved | C162_values, C162_base | Conditions: 2 <= A <= n, base^A < 2^63 and call count below 2^31 so that the calls succeed. |
| C163 | Pixels may be stored in any order | proved | C163_pixels |  |
| C164 | Unread pixels have no influence | proved | C164_unread |  |
| C165 | Pixel values are only names for a Discriminator | proved | C165_discriminator |  |
| C166 | Pixel values are only names for a ClusWisard | proved | C166_cluswisard, C166_base | Conditions: 2 <= A <= n, n + A < 2^31, base^A < 2^63 for both bases. |
| C167 | Training a Wisard with its own answer keeps the answer | proved | C167_reinforcement | Fewer than 2^31 - 2 calls. |
| C168 | Every image can be taught | proved | C168_teachable, C168_default_wiring, C168_needs_bleaching |  |
| C169 | Training a ClusWisard with its own answer keeps the answer | partial | C169_reinforcement_partial, C169_refuted | Proved without bleaching, for any labels. With bleaching (the default) it is false: C169_refuted is a model that answers a, is trained with the image as a, and then answers b. |
| C170 | Noise changes few votes | proved | C170_votes, C170_scores, C170_pixels, C170_default, C170_trained, C170_noise |  |
| C171 | A clear answer withstands noise | proved | C171_stable, C171_needs_plain | C171_needs_plain shows the condition on the lead cannot be read off the scores that are returned with bleaching. |
| C172 | Leave-one-out evaluation | proved | C172_back, C172_without, C172_evaluation, C172_needs_other | Fewer than 2^31 - 2 calls. |
| C173 | A ClusWisard with one discriminator per class is a Wisard | proved | C173_training, C173_results, C173_scores, C173_digits | C173_digits shows that the condition on the labels is needed. |
| C174 | Training one image again and again | proved | C174_score, C174_finite, C174_repeat, C174_needs_few, C174_needs_nonzero | C174_needs_few and C174_needs_nonzero show that the conditions are needed. |
| C175 | Noise and ClusWisard | proved | C175_scores, C175_trained, C175_stable |  |
| C176 | More training and ClusWisard | proved | C176_votes, C176_scores, C176_takeover, C176_needs_plain |  |
| C177 | From sequences of points to classes | proved | C177_program, C177_similar |  |
| C178 | The size of a model, asked from Python | proved | C178_calls, C178_growth, C178_program, C178_clus | The sizes of the C++ objects are parameters; that the value fits a long is not modelled. |
| C179 | A data set only counts by its inputs and labels | proved | C179_same, C179_reload |  |
| C180 | Images can be unlearnt in parallel | proved | C180_parallel, C180_mixed, C180_training_race | Sequentially consistent interleavings, as C135. |
| C181 | ClusWisards made in the same second are copies | proved | C181_process, C181_same_second, C181_few, C181_repeated_wiring | The generator is a state machine (srand, rand) as in C118; the programs that draw from it are in Model/RandClus. |
| C182 | ClusWisards in several threads | proved | C182_alone, C182_halves, C182_unsupervised_next_to_questions, C182_classify_refuted, C182_unsupervised_refuted, C182_constructors_refuted, C182_training_refuted | Sequentially consistent interleavings, as in C135. The theorems named refuted prove the data races of the last sentence. A new discriminator is written at its place in the map before the pointer is; until then no other thread reads that place. |
| C183 | What a data set returned stays what it was | partial | C183_careful_partial, C183_python, C183_window, C183_refuted, C183_unnoticed | False of the code for C++ references kept over a call of add: get returns a reference into the array of a std::vector, which add may replace (C183_window gives the exact moment for one program, C183_refuted that every implementation has it). Proved for all programs that use no reference after its data set was changed or destroyed, and for all Python programs, where get copies. save and loading from a file are not in this model. |
| C184 | The order of the points of a sequence | partial | C184_order_partial, C184_exact, C184_first_two, C184_refuted | False of the code in IEEE arithmetic: C184_refuted has four points whose sum overflows in one order only, which changes the output of every canvas of two kernels or of the one with the kernels exchanged. Proved when the computed means and deviations are the same and no point has two kernels at the same distance (C184_order_partial), in arithmetics whose sums may be reordered (C184_exact), and in IEEE arithmetic for an exchange of the first two points (C184_first_two). Missing: ties, which std::sort decides; useDirection with dimension above 1. |
| C185 | From sequences of points to clusters | proved | C185_program, C185_pixels, C185_similar | Labels without '::' that do not end in ':' (others: C58); unlabelled trainings must come first (C61). C185_similar is for models without bleaching and ignoreZero. |
| C186 | The units of the coordinates of a KernelCanvas do not matter | partial | C186_units_partial, C186_refuted | Missing: numbers near the ends of the range of double, of which it is false (C186_refuted). Proved for coordinates that before and after the change are multiples of 2^-300 within 2^480. |
| C187 | Saving and loading a model now and then leaves no trace | proved | C187_discriminator, C187_wisard, C187_clusWisard, C187_clusWisard_successful | A save through files asks that their names are new and that nobody touches them until they are read; C33, C36 and C93 show what happens otherwise. |
| C188 | A stricter confidence never raises a score | proved | C188_votes, C188_lax, C188_wisard, C188_clusWisard, C188_answer_may_change | C188_wisard is about single trainings and leaveOneOut: the batch call train(images, labels) compares confidence with the number of RAMs (C49, C63). |
| C189 | Synthetic images of nested samples are samples | proved | C189_common, C189_nested, C189_default, C189_needs_nesting, C189_needs_whole_rams | The counts are assumed not to overflow a 32-bit int (C87). |
| C190 | A data set can be its own archive, under a new name each time | proved | C190_dataset, C190_one_file, C190_one_sample |  |
| C191 | The default wiring does not know which pixels are neighbours | proved | C191_scrambled, C191_discriminator, C191_clusWisard |  |
| C192 | The shuffle favours no wiring | proved | C192_shuffle, C192_wiring | With libstdc++'s random_shuffle, which is modelled after bits/stl_algo.h (not in /repo). |
| C193 | The mental images of scrambled images are the scrambled mental images | proved | C193_mental, C193_discriminator, C193_synthetic |  |
| C194 | RAMs that read more pixels are more selective | proved | C194_votes, C194_recognised, C194_address_size, C194_wisard |  |
| C195 | Merging classes | proved | C195_merge, C195_mental |  |
| C196 | Training can be split | proved | C196_votes, C196_mental |  |
| C197 | Pixels that say nothing new do not matter | proved | C197_wisard, C197_votes, C197_constant, C197_copies |  |
| C198 | Models can be put side by side | proved | C198_votes, C198_mental, C198_scores |  |
| C199 | The order of the RAMs does not matter | proved | C199_wisard, C199_votes, C199_mental |  |
| C200 | Two training sets together | proved | C200_scores |  |
<!-- end status -->
