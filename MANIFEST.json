{
 "claims": [
  {
   "property": "C01",
   "status": "proved",
   "theorems": [
    "Wis.C01_base64_roundtrip",
    "Wis.C01_base64_empty"
   ],
   "note": "all byte strings; the empty string is shown to be UB on decode"
  },
  {
   "property": "C02",
   "status": "proved",
   "theorems": [
    "Wis.C02_base64_rfc4648"
   ],
   "note": "against an arithmetic RFC 4648 spec"
  },
  {
   "property": "C03",
   "status": "proved",
   "theorems": [
    "Wis.C03_bininput_of_list"
   ],
   "note": "lists shorter than 2^62"
  },
  {
   "property": "C04",
   "status": "proved",
   "theorems": [
    "Wis.C04_bininput_bit_array"
   ],
   "note": "any write history"
  },
  {
   "property": "C05",
   "status": "proved",
   "theorems": [
    "Wis.C05_bininput_data_roundtrip"
   ],
   "note": ""
  },
  {
   "property": "C06",
   "status": "partial",
   "theorems": [
    "Wis.C06_set_local_partial",
    "Wis.C06_set_spills",
    "Wis.C06_set_any_value"
   ],
   "note": "false of the code for values outside {0,1}: refuted for every BinInput (C06_set_spills), full effect characterised (C06_set_any_value), true for 0/1 (C06_set_local_partial)"
  },
  {
   "property": "C07",
   "status": "proved",
   "theorems": [
    "Wis.C07_dataset_save_load"
   ],
   "note": ""
  },
  {
   "property": "C08",
   "status": "proved",
   "theorems": [
    "Wis.C08_dataset_append_only"
   ],
   "note": "out-of-range get is UB, as in the code"
  },
  {
   "property": "C09",
   "status": "partial",
   "theorems": [
    "Wis.C09_save_keeps_labelled_partial",
    "Wis.C09_save_changes_labels",
    "Wis.C09_reload_undefined"
   ],
   "note": "false of the code: save() turns missing labels into empty ones, and reloading unlabelled or empty data sets is UB; true for fully labelled ones"
  },
  {
   "property": "C10",
   "status": "partial",
   "theorems": [
    "Wis.C10_distinct_prefixes_partial",
    "Wis.C10_second_save_loses_an_entry"
   ],
   "note": "false of the code: the file is opened for append without a separator; proved that a reload has one entry too few, and that different prefixes do not interfere"
  },
  {
   "property": "C100",
   "status": "partial",
   "theorems": [
    "Wis.C100_clusWisard_partial"
   ],
   "note": "Missing: the ClusWisards that C36 shows cannot be loaded again (their text is still JSON by C99_dump_is_json)."
  },
  {
   "property": "C101",
   "status": "partial",
   "theorems": [
    "Wis.C101_cut_text_partial",
    "Wis.C101_cut_accepted",
    "Wis.C101_cut_undefined"
   ],
   "note": "False: a cut at a multiple of four characters is accepted as a shorter image (exact description in C101_cut_text_partial: it is a prefix of the pixels), every other cut is undefined behaviour."
  },
  {
   "property": "C102",
   "status": "partial",
   "theorems": [
    "Wis.C102_cut_file_partial",
    "Wis.C102_cut_positions",
    "Wis.C102_cut_label_accepted",
    "Wis.C102_cut_undefined",
    "Wis.C102_unreadable"
   ],
   "note": "False: complete description of what every cut does. Records before the cut are loaded unchanged; the record cut is loaded with a shortened label or image, or loading is undefined behaviour."
  },
  {
   "property": "C103",
   "status": "partial",
   "theorems": [
    "Wis.C103_cut_file_partial",
    "Wis.C103_cut_positions"
   ],
   "note": "False: for every byte of the file, exactly which cuts throw (within the first six bytes of a RAM), are undefined behaviour, or are loaded with RAMs and entries missing; the votes of the loaded discriminator are never higher."
  },
  {
   "property": "C104",
   "status": "partial",
   "theorems": [
    "Wis.C104_wrong_name_partial",
    "Wis.C104_missing_model_file",
    "Wis.C104_missing_data_files"
   ],
   "note": "False: a missing file is read as an empty one. Only a name without the suffix throws (DataSet)."
  },
  {
   "property": "C105",
   "status": "proved",
   "theorems": [
    "Wis.C105_save_load",
    "Wis.C105_file_as_text",
    "Wis.C105_second_save"
   ],
   "note": "Files and texts shorter than 2^31 bytes. C105_second_save: saving under a prefix already used appends, and the file then holds n1 + n2 - 1 RAMs, so the file must be new."
  },
  {
   "property": "C106",
   "status": "proved",
   "theorems": [
    "Wis.C106_score",
    "Wis.C106_score_plain"
   ],
   "note": "Valid images, fewer than 2^31 calls; the score (Spec.knownBy in Props/Semantics) is defined by counting images."
  },
  {
   "property": "C107",
   "status": "proved",
   "theorems": [
    "Wis.C107_only_the_set_matters"
   ],
   "note": "Same wiring on both sides (C111 says when it is the same)."
  },
  {
   "property": "C108",
   "status": "proved",
   "theorems": [
    "Wis.C108_more_training"
   ],
   "note": ""
  },
  {
   "property": "C109",
   "status": "proved",
   "theorems": [
    "Wis.C109_new_classes"
   ],
   "note": ""
  },
  {
   "property": "C11",
   "status": "proved",
   "theorems": [
    "Wis.C11_vote_counts_matching_images"
   ],
   "note": "all images, wirings, bases, option values; up to 2^31-1 trainings (int counters)"
  },
  {
   "property": "C110",
   "status": "proved",
   "theorems": [
    "Wis.C110_repetition",
    "Wis.C110_train_again"
   ],
   "note": "At most 2^31-3 trainings."
  },
  {
   "property": "C111",
   "status": "proved",
   "theorems": [
    "Wis.C111_wisard",
    "Wis.C111_batch",
    "Wis.C111_discriminator",
    "Wis.C111_default_wiring_random"
   ],
   "note": "Same compiled program on both sides (evaluation order). The last theorem shows the condition is needed. ClusWisard has no such option (C95)."
  },
  {
   "property": "C112",
   "status": "proved",
   "theorems": [
    "Wis.C112_order_kept"
   ],
   "note": ""
  },
  {
   "property": "C113",
   "status": "proved",
   "theorems": [
    "Wis.C113_any_renaming",
    "Wis.C113_confidence_two"
   ],
   "note": "C113_confidence_two: the limit on the confidence is needed (cf. C41)."
  },
  {
   "property": "C114",
   "status": "proved",
   "theorems": [
    "Wis.C114_discriminator",
    "Wis.C114_wisard",
    "Wis.C114_clusWisard",
    "Wis.C114_not_an_object"
   ],
   "note": "Equivalence with Spec.DiscReads / WisardDoc / ClusDoc (Spec/LoadJson). The members of classes/clusters must be in key order, as they are in every parsed document (std::map)."
  },
  {
   "property": "C115",
   "status": "proved",
   "theorems": [
    "Wis.C115_discriminator",
    "Wis.C115_wisard",
    "Wis.C115_clusWisard",
    "Wis.C115_unknown_member",
    "Wis.C115_text"
   ],
   "note": ""
  },
  {
   "property": "C116",
   "status": "partial",
   "theorems": [
    "Wis.C116_load_discriminator_partial",
    "Wis.C116_load_wisard_partial",
    "Wis.C116_load_clusWisard_partial",
    "Wis.C116_classify_wisard_partial",
    "Wis.C116_classify_clusWisard_partial",
    "Wis.C116_outside_wiring",
    "Wis.C116_load_undefined",
    "Wis.C116_use_undefined",
    "Wis.C116_classify_undefined"
   ],
   "note": "False in general (last four theorems): wires outside the images, data parts of a wrong length, floating numbers outside int, huge powers of base, contents near INT_MAX, base 0 are not checked. Proved: loading has no undefined behaviour if these numbers fit and the data parts have lengths divisible by 4 (everything else in the document is arbitrary); classifying has none if the wires are inside and contents at most 2147483645."
  },
  {
   "property": "C117",
   "status": "proved",
   "theorems": [
    "Wis.C117_random_string",
    "Wis.C117_file_name"
   ],
   "note": "The digit 9 is never used (off by one in the size of the alphabet)."
  },
  {
   "property": "C118",
   "status": "partial",
   "theorems": [
    "Wis.C118_valid_wiring_partial",
    "Wis.C118_process",
    "Wis.C118_same_second",
    "Wis.C118_same_second_wisard",
    "Wis.C118_same_second_canvas",
    "Wis.C118_few_wirings",
    "Wis.C118_wiring_never_drawn"
   ],
   "note": "False of the code: every constructor seeds the generator from the clock, so models created in the same second with the same arguments have the same wiring, at most 100001 wirings of a discriminator exist and from 9 pixels on some wirings never occur. Proved: the wiring is always valid. C118_process ties the processes with one shared generator to the model with arbitrary random choices used everywhere else."
  },
  {
   "property": "C119",
   "status": "partial",
   "theorems": [
    "Wis.C119_distinct_names_partial",
    "Wis.C119_same_second_collision"
   ],
   "note": "False of the code: the file name is drawn from the generator seeded by the constructor, so it is the same for discriminators created in the same second. Proved when the names differ."
  },
  {
   "property": "C12",
   "status": "partial",
   "theorems": [
    "Wis.C12_accepted_no_collision_partial",
    "Wis.C12_base2_limit",
    "Wis.C12_limit_never_thrown"
   ],
   "note": "accepted RAMs never collide and base 2 is limited exactly; the exception is never thrown for base >= 3, where too large sizes are UB (signed overflow): the property is false of the code there"
  },
  {
   "property": "C120",
   "status": "partial",
   "theorems": [
    "Wis.C120_make_partial",
    "Wis.C120_same_second"
   ],
   "note": "False of the code: make seeds the generator from the clock, so all images of one second are equal."
  },
  {
   "property": "C121",
   "status": "partial",
   "theorems": [
    "Wis.C121_inside_partial",
    "Wis.C121_one_position",
    "Wis.C121_blind"
   ],
   "note": "False of the code: randint seeds the generator for every address, so all addresses are the same position."
  },
  {
   "property": "C122",
   "status": "proved",
   "theorems": [
    "Wis.C122_pretty_is_json",
    "Wis.C122_pretty_throws",
    "Wis.C122_pretty_roundtrip",
    "Wis.C122_discriminator",
    "Wis.C122_wisard",
    "Wis.C122_clusWisard"
   ],
   "note": ""
  },
  {
   "property": "C123",
   "status": "proved",
   "theorems": [
    "Wis.C123_discriminator",
    "Wis.C123_wisard",
    "Wis.C123_damage_is_local",
    "Wis.C123_file_lost",
    "Wis.C123_lost_class_scores_zero",
    "Wis.C123_clusWisard"
   ],
   "note": "A lost file is loaded silently as a class without RAMs whose score is always 0."
  },
  {
   "property": "C124",
   "status": "proved",
   "theorems": [
    "Wis.C124_values",
    "Wis.C124_others",
    "Wis.C124_no_dangling"
   ],
   "note": "Refinement from a heap of discriminators behind raw pointers to plain values, for histories without copies of the C++ object; no pointer dangles in any history."
  },
  {
   "property": "C125",
   "status": "partial",
   "theorems": [
    "Wis.C125_copies_partial",
    "Wis.C125_own_calls",
    "Wis.C125_copy_trains_original",
    "Wis.C125_copy_refuted"
   ],
   "note": "False of the code: a copy shares the discriminators of the original, training the copy trains the original. Holds when the copied object has no discriminators."
  },
  {
   "property": "C126",
   "status": "partial",
   "theorems": [
    "Wis.C126_not_freed_in_use_partial",
    "Wis.C126_destroy_frees_nothing",
    "Wis.C126_memory_given_back_refuted",
    "Wis.C126_unsupervised_refuted"
   ],
   "note": "False of the code: no destructor deletes a discriminator, memory grows without bound, also by repeated trainUnsupervised. What holds: nothing is freed while in use."
  },
  {
   "property": "C127",
   "status": "proved",
   "theorems": [
    "Wis.C127_wisard_train",
    "Wis.C127_wisard_trainDataSet",
    "Wis.C127_wisard_leaveMoreOut",
    "Wis.C127_wisard_classify",
    "Wis.C127_wisard_pyClassify",
    "Wis.C127_clusWisard_train",
    "Wis.C127_clusWisard_semi",
    "Wis.C127_clusWisard_classify",
    "Wis.C127_clusWisard_classifyUnsupervised",
    "Wis.C127_clusWisard_pyClassify"
   ],
   "note": ""
  },
  {
   "property": "C128",
   "status": "proved",
   "theorems": [
    "Wis.C128_nearest",
    "Wis.C128_strict",
    "Wis.C128_wisard",
    "Wis.C128_clusWisard",
    "Wis.C128_degrees",
    "Wis.C128_degrees_exact",
    "Wis.C128_activation",
    "Wis.C128_finite"
   ],
   "note": "IEEE binary32 rounding is defined and proved to be to nearest. C128_finite shows that the sums cannot overflow."
  },
  {
   "property": "C129",
   "status": "proved",
   "theorems": [
    "Wis.C129_ieee"
   ],
   "note": "IEEE binary64 operations and the order laws are defined and proved; tanh is any function with values in [-1,1]. Without useDirection, or in dimension 1 (C70)."
  },
  {
   "property": "C13",
   "status": "proved",
   "theorems": [
    "Wis.C13_training_order_irrelevant"
   ],
   "note": ""
  },
  {
   "property": "C130",
   "status": "partial",
   "theorems": [
    "Wis.C130_numbers_partial",
    "Wis.C130_refuted",
    "Wis.C130_refuted_single"
   ],
   "note": "False of the code: deviation 0 gives 0/0 = NaN, every distance is NaN and the output does not depend on any coordinate. Exactly characterised for doubles within 2^480."
  },
  {
   "property": "C131",
   "status": "partial",
   "theorems": [
    "Wis.C131_minScore_partial",
    "Wis.C131_refuted_minScore",
    "Wis.C131_nan_train",
    "Wis.C131_nan_class",
    "Wis.C131_degree_partial",
    "Wis.C131_refuted_degree"
   ],
   "note": "False of the code: NaN is accepted. With a NaN minScore every image gets its own discriminator up to the limit; a NaN activationDegree is converted to int (UB)."
  },
  {
   "property": "C132",
   "status": "proved",
   "theorems": [
    "Wis.C132_wisard",
    "Wis.C132_clusWisard",
    "Wis.C132_discriminator",
    "Wis.C132_no_options"
   ],
   "note": "What pybind11 converts is a parameter (PyCasts); options are compared by the value they mean."
  },
  {
   "property": "C133",
   "status": "partial",
   "theorems": [
    "Wis.C133_options_partial",
    "Wis.C133_refuted"
   ],
   "note": "False of the code: the constructor never sets the member dim and reads it, so no C++ construction is defined. The options are read like those of Python."
  },
  {
   "property": "C134",
   "status": "partial",
   "theorems": [
    "Wis.C134_make_partial",
    "Wis.C134_some_score_partial",
    "Wis.C134_refuted",
    "Wis.C134_undefined"
   ],
   "note": "False of the code: the threshold is 0 when no vote is above 1, and from votes of 2^30 on the power of two may overflow int. Proved below 2^30: at most 29 rounds, exact thresholds, never above the largest vote. The returned map is never freed (not modelled)."
  },
  {
   "property": "C135",
   "status": "proved",
   "theorems": [
    "Wis.C135_questions",
    "Wis.C135_refines",
    "Wis.C135_every_world",
    "Wis.C135_train",
    "Wis.C135_trainDataSet"
   ],
   "note": "Sequentially consistent interleavings of the accesses to containers, entries and members; that the accesses do what the calls do in the other modules is proved (C135_refines). Classification with a ClusWisard looks its discriminators up with operator[] of std::map, hence the condition; without it see C182. Not in the threaded model: output with verbose, copies, JSON, changes of a DataSet."
  },
  {
   "property": "C136",
   "status": "proved",
   "theorems": [
    "Wis.C136_influence",
    "Wis.C136_twice",
    "Wis.C136_lost",
    "Wis.C136_clus_mental"
   ],
   "note": "For all calls of the threaded model and all states. The Python module keeps the GIL during calls, so this concerns C++."
  },
  {
   "property": "C137",
   "status": "partial",
   "theorems": [
    "Wis.C137_independent_partial",
    "Wis.C137_constructors_refuted",
    "Wis.C137_random_refuted"
   ],
   "note": "False of the code: constructors and random wiring use the generator of the C library, which all models share. Proved if at most one thread uses random numbers."
  },
  {
   "property": "C138",
   "status": "partial",
   "theorems": [
    "Wis.C138_parallel_partial",
    "Wis.C138_standard_refuted"
   ],
   "note": "By the C++ standard operator[] of std::map is a modification, hence a data race; proved for implementations where it only searches an existing key, such as libstdc++."
  },
  {
   "property": "C139",
   "status": "proved",
   "theorems": [
    "Wis.C139_history",
    "Wis.C139_train",
    "Wis.C139_numbers",
    "Wis.C139_succeeds",
    "Wis.C139_loaded"
   ],
   "note": ""
  },
  {
   "property": "C14",
   "status": "proved",
   "theorems": [
    "Wis.C14_untrain_undoes_train"
   ],
   "note": "votes and counts from any history, mental images from any history that untrains no image more often than it was trained"
  },
  {
   "property": "C140",
   "status": "proved",
   "theorems": [
    "Wis.C140_known_class",
    "Wis.C140_train",
    "Wis.C140_new_class",
    "Wis.C140_loaded"
   ],
   "note": ""
  },
  {
   "property": "C141",
   "status": "proved",
   "theorems": [
    "Wis.C141_learns",
    "Wis.C141_class",
    "Wis.C141_something",
    "Wis.C141_loaded"
   ],
   "note": "C141_class is for thresholds other than 0; C141_learns covers threshold 0 for one cluster, with the float operations of Model/NanArgs.lean."
  },
  {
   "property": "C142",
   "status": "proved",
   "theorems": [
    "Wis.C142_mental",
    "Wis.C142_returns",
    "Wis.C142_loaded"
   ],
   "note": ""
  },
  {
   "property": "C143",
   "status": "partial",
   "theorems": [
    "Wis.C143_enough_room_partial",
    "Wis.C143_silent",
    "Wis.C143_silent_data",
    "Wis.C143_everything_lost"
   ],
   "note": "False of the code: on every disk the reply is the one of a save without failures (C143_silent, C143_silent_data), and if nothing could be written the loaded discriminator has no RAMs and no votes, without any error (C143_everything_lost). What holds: with enough room the save is complete (C143_enough_room_partial)."
  },
  {
   "property": "C144",
   "status": "proved",
   "theorems": [
    "Wis.C144_discriminator",
    "Wis.C144_wisard",
    "Wis.C144_clusWisard"
   ],
   "note": ""
  },
  {
   "property": "C145",
   "status": "proved",
   "theorems": [
    "Wis.C145_binInput",
    "Wis.C145_dataSet",
    "Wis.C145_discriminator",
    "Wis.C145_discriminator_train",
    "Wis.C145_discriminator_classify",
    "Wis.C145_wisard",
    "Wis.C145_wisard_train",
    "Wis.C145_wisard_classify",
    "Wis.C145_wisard_leaveOneOut",
    "Wis.C145_wisard_leaveMoreOut",
    "Wis.C145_clusWisard",
    "Wis.C145_clusWisard_train",
    "Wis.C145_clusWisard_unsupervised",
    "Wis.C145_clusWisard_classify",
    "Wis.C145_handle_get",
    "Wis.C145_handle_set",
    "Wis.C145_json",
    "Wis.C145_options",
    "Wis.C145_mapping",
    "Wis.C145_mapping_accepted",
    "Wis.C145_binInput_get",
    "Wis.C145_binInput_set",
    "Wis.C145_binInput_data",
    "Wis.C145_dataSet_new",
    "Wis.C145_dataSet_get",
    "Wis.C145_dataSet_getLabel",
    "Wis.C145_dataSet_save",
    "Wis.C145_kernelCanvas",
    "Wis.C145_kernelCanvas_transform",
    "Wis.C145_synthesizer",
    "Wis.C145_handle_new",
    "Wis.C145_handle_data",
    "Wis.C145_noArgs"
   ],
   "note": "The conversions are those documented for pybind11 (trusted, Model/Bind.lean, Model/PyObjects.lean). getsizeof, RAMDataHandle.save and ClusWisard.getMentalImage (C152) are not restated."
  },
  {
   "property": "C146",
   "status": "partial",
   "theorems": [
    "Wis.C146_images_partial",
    "Wis.C146_empty_list",
    "Wis.C146_binInput",
    "Wis.C146_binInput_accepted"
   ],
   "note": "False of the code: C146_empty_list and, if objects with __getitem__ count as sequences (PySequence_Check), C146_binInput. What holds: non-empty lists (C146_images_partial)."
  },
  {
   "property": "C147",
   "status": "proved",
   "theorems": [
    "Wis.C147_labels_come_back",
    "Wis.C147_same_text",
    "Wis.C147_classes",
    "Wis.C147_str_labels",
    "Wis.C147_bytes_raise",
    "Wis.C147_clusWisard",
    "Wis.C147_clusWisard_decodes"
   ],
   "note": "For ClusWisard the labels must not contain '::' or end in ':'; without that they still arrive as str (C147_clusWisard_decodes)."
  },
  {
   "property": "C148",
   "status": "proved",
   "theorems": [
    "Wis.C148_written",
    "Wis.C148_distinct",
    "Wis.C148_examples"
   ],
   "note": "Grisu2 is modelled with its wrap-around arithmetic and asserts (Model/Grisu.lean); negative zero is not distinguished from zero."
  },
  {
   "property": "C149",
   "status": "proved",
   "theorems": [
    "Wis.C149_read_back",
    "Wis.C149_reread",
    "Wis.C149_parse_outcome",
    "Wis.C149_normal_form",
    "Wis.C149_discriminator",
    "Wis.C149_wisard",
    "Wis.C149_clusWisard",
    "Wis.C149_config",
    "Wis.std_reads"
   ],
   "note": "strtod is any function satisfying ReadsNearest (std_reads: the correctly rounding one does). C149_clusWisard has the hypotheses under which C36 holds."
  },
  {
   "property": "C15",
   "status": "proved",
   "theorems": [
    "Wis.C15_votes_are_trainings_minus_untrainings",
    "Wis.C15_votes_any_history"
   ],
   "note": ""
  },
  {
   "property": "C150",
   "status": "proved",
   "theorems": [
    "Wis.C150_session"
   ],
   "note": ""
  },
  {
   "property": "C151",
   "status": "proved",
   "theorems": [
    "Wis.C151_program"
   ],
   "note": "Hypotheses: options usable (base >= 2, base^A < 2^63, confidence at most the number of RAMs), text shorter than 2^31."
  },
  {
   "property": "C152",
   "status": "proved",
   "theorems": [
    "Wis.C152_session"
   ],
   "note": "AsksFor is the specification of a call; asks_unique: at most one C++ call."
  },
  {
   "property": "C153",
   "status": "proved",
   "theorems": [
    "Wis.C153_all_trainings"
   ],
   "note": "The order condition is necessary (C61_undefined)."
  },
  {
   "property": "C154",
   "status": "proved",
   "theorems": [
    "Wis.C154_program"
   ],
   "note": "json() uses the Grisu2 writer and any correctly rounding strtod; base 2 with unsupervised training is necessary (C36_unsupervised_base_refuted)."
  },
  {
   "property": "C155",
   "status": "partial",
   "theorems": [
    "Wis.C155_values_partial",
    "Wis.C155_refuted"
   ],
   "note": "False: after the last bit b[i] raises RuntimeError instead of IndexError (Exception derives from std::exception), so list(b) and for loops always raise. Proved: the values handed out before are the bits."
  },
  {
   "property": "C156",
   "status": "partial",
   "theorems": [
    "Wis.C156_reported_partial",
    "Wis.C156_get_undefined",
    "Wis.C156_label_wraps"
   ],
   "note": "False for DataSet.get (undefined behaviour outside the data set) and for getLabel of indexes from 2^32 on (taken modulo 2^32). Proved for BinInput and for getLabel below 2^31."
  },
  {
   "property": "C157",
   "status": "proved",
   "theorems": [
    "Wis.C157_session",
    "Wis.C157_program"
   ],
   "note": "Lists are shorter than 2^62 (no Python list is longer)."
  },
  {
   "property": "C158",
   "status": "proved",
   "theorems": [
    "Wis.C158_session",
    "Wis.C158_program"
   ],
   "note": "The size condition keeps the text below the 2^31 limit of the decoder; conditions on the options as in C18."
  },
  {
   "property": "C159",
   "status": "proved",
   "theorems": [
    "Wis.C159_binInput",
    "Wis.C159_handle",
    "Wis.C159_label",
    "Wis.C159_config",
    "Wis.C159_wisard_mental",
    "Wis.C159_clus_mental"
   ],
   "note": "RAMDataHandle: with the RAMs 0..n-1, none empty (otherwise see C30-C32)."
  },
  {
   "property": "C16",
   "status": "proved",
   "theorems": [
    "Wis.C16_ignoreZero_only_silences_zero"
   ],
   "note": ""
  },
  {
   "property": "C160",
   "status": "proved",
   "theorems": [
    "Wis.C160_program"
   ],
   "note": "Conditions: as C151, and base^A <= 2^31, (n+A)*images < 2^31 so that the counts fit an int."
  },
  {
   "property": "C161",
   "status": "proved",
   "theorems": [
    "Wis.C161_coincidences",
    "Wis.C161_recoding"
   ],
   "note": ""
  },
  {
   "property": "C162",
   "status": "proved",
   "theorems": [
    "Wis.C162_values",
    "Wis.C162_base"
   ],
   "note": "Conditions: 2 <= A <= n, base^A < 2^63 and call count below 2^31 so that the calls succeed."
  },
  {
   "property": "C163",
   "status": "proved",
   "theorems": [
    "Wis.C163_pixels"
   ],
   "note": ""
  },
  {
   "property": "C164",
   "status": "proved",
   "theorems": [
    "Wis.C164_unread"
   ],
   "note": ""
  },
  {
   "property": "C165",
   "status": "proved",
   "theorems": [
    "Wis.C165_discriminator"
   ],
   "note": ""
  },
  {
   "property": "C166",
   "status": "proved",
   "theorems": [
    "Wis.C166_cluswisard",
    "Wis.C166_base"
   ],
   "note": "Conditions: 2 <= A <= n, n + A < 2^31, base^A < 2^63 for both bases."
  },
  {
   "property": "C167",
   "status": "proved",
   "theorems": [
    "Wis.C167_reinforcement"
   ],
   "note": "Fewer than 2^31 - 2 calls."
  },
  {
   "property": "C168",
   "status": "proved",
   "theorems": [
    "Wis.C168_teachable",
    "Wis.C168_default_wiring",
    "Wis.C168_needs_bleaching"
   ],
   "note": ""
  },
  {
   "property": "C169",
   "status": "partial",
   "theorems": [
    "Wis.C169_reinforcement_partial",
    "Wis.C169_refuted"
   ],
   "note": "Proved without bleaching, for any labels. With bleaching (the default) it is false: C169_refuted is a model that answers a, is trained with the image as a, and then answers b."
  },
  {
   "property": "C17",
   "status": "proved",
   "theorems": [
    "Wis.C17_mental_image_counts",
    "Wis.C17_mental_image_history"
   ],
   "note": "any iteration order of the hash table; values must fit an int"
  },
  {
   "property": "C170",
   "status": "proved",
   "theorems": [
    "Wis.C170_votes",
    "Wis.C170_scores",
    "Wis.C170_pixels",
    "Wis.C170_default",
    "Wis.C170_trained",
    "Wis.C170_noise"
   ],
   "note": ""
  },
  {
   "property": "C171",
   "status": "proved",
   "theorems": [
    "Wis.C171_stable",
    "Wis.C171_needs_plain"
   ],
   "note": "C171_needs_plain shows the condition on the lead cannot be read off the scores that are returned with bleaching."
  },
  {
   "property": "C172",
   "status": "proved",
   "theorems": [
    "Wis.C172_back",
    "Wis.C172_without",
    "Wis.C172_evaluation",
    "Wis.C172_needs_other"
   ],
   "note": "Fewer than 2^31 - 2 calls."
  },
  {
   "property": "C173",
   "status": "proved",
   "theorems": [
    "Wis.C173_training",
    "Wis.C173_results",
    "Wis.C173_scores",
    "Wis.C173_digits"
   ],
   "note": "C173_digits shows that the condition on the labels is needed."
  },
  {
   "property": "C174",
   "status": "proved",
   "theorems": [
    "Wis.C174_score",
    "Wis.C174_finite",
    "Wis.C174_repeat",
    "Wis.C174_needs_few",
    "Wis.C174_needs_nonzero"
   ],
   "note": "C174_needs_few and C174_needs_nonzero show that the conditions are needed."
  },
  {
   "property": "C175",
   "status": "proved",
   "theorems": [
    "Wis.C175_scores",
    "Wis.C175_trained",
    "Wis.C175_stable"
   ],
   "note": ""
  },
  {
   "property": "C176",
   "status": "proved",
   "theorems": [
    "Wis.C176_votes",
    "Wis.C176_scores",
    "Wis.C176_takeover",
    "Wis.C176_needs_plain"
   ],
   "note": ""
  },
  {
   "property": "C177",
   "status": "proved",
   "theorems": [
    "Wis.C177_program",
    "Wis.C177_similar"
   ],
   "note": ""
  },
  {
   "property": "C178",
   "status": "proved",
   "theorems": [
    "Wis.C178_calls",
    "Wis.C178_growth",
    "Wis.C178_program",
    "Wis.C178_clus"
   ],
   "note": "The sizes of the C++ objects are parameters; that the value fits a long is not modelled."
  },
  {
   "property": "C179",
   "status": "proved",
   "theorems": [
    "Wis.C179_same",
    "Wis.C179_reload"
   ],
   "note": ""
  },
  {
   "property": "C18",
   "status": "proved",
   "theorems": [
    "Wis.C18_default_wiring"
   ],
   "note": "every outcome of rand() and random_shuffle"
  },
  {
   "property": "C180",
   "status": "proved",
   "theorems": [
    "Wis.C180_parallel",
    "Wis.C180_mixed",
    "Wis.C180_training_race"
   ],
   "note": "Sequentially consistent interleavings, as C135."
  },
  {
   "property": "C181",
   "status": "proved",
   "theorems": [
    "Wis.C181_process",
    "Wis.C181_same_second",
    "Wis.C181_few",
    "Wis.C181_repeated_wiring"
   ],
   "note": "The generator is a state machine (srand, rand) as in C118; the programs that draw from it are in Model/RandClus."
  },
  {
   "property": "C182",
   "status": "proved",
   "theorems": [
    "Wis.C182_alone",
    "Wis.C182_halves",
    "Wis.C182_unsupervised_next_to_questions",
    "Wis.C182_classify_refuted",
    "Wis.C182_unsupervised_refuted",
    "Wis.C182_constructors_refuted",
    "Wis.C182_training_refuted"
   ],
   "note": "Sequentially consistent interleavings, as in C135. The theorems named refuted prove the data races of the last sentence. A new discriminator is written at its place in the map before the pointer is; until then no other thread reads that place."
  },
  {
   "property": "C183",
   "status": "partial",
   "theorems": [
    "Wis.C183_careful_partial",
    "Wis.C183_python",
    "Wis.C183_window",
    "Wis.C183_refuted",
    "Wis.C183_unnoticed"
   ],
   "note": "False of the code for C++ references kept over a call of add: get returns a reference into the array of a std::vector, which add may replace (C183_window gives the exact moment for one program, C183_refuted that every implementation has it). Proved for all programs that use no reference after its data set was changed or destroyed, and for all Python programs, where get copies. save and loading from a file are not in this model."
  },
  {
   "property": "C184",
   "status": "partial",
   "theorems": [
    "Wis.C184_order_partial",
    "Wis.C184_exact",
    "Wis.C184_first_two",
    "Wis.C184_refuted"
   ],
   "note": "False of the code in IEEE arithmetic: C184_refuted has four points whose sum overflows in one order only, which changes the output of every canvas of two kernels or of the one with the kernels exchanged. Proved when the computed means and deviations are the same and no point has two kernels at the same distance (C184_order_partial), in arithmetics whose sums may be reordered (C184_exact), and in IEEE arithmetic for an exchange of the first two points (C184_first_two). Missing: ties, which std::sort decides; useDirection with dimension above 1."
  },
  {
   "property": "C185",
   "status": "proved",
   "theorems": [
    "Wis.C185_program",
    "Wis.C185_pixels",
    "Wis.C185_similar"
   ],
   "note": "Labels without '::' that do not end in ':' (others: C58); unlabelled trainings must come first (C61). C185_similar is for models without bleaching and ignoreZero."
  },
  {
   "property": "C186",
   "status": "partial",
   "theorems": [
    "Wis.C186_units_partial",
    "Wis.C186_refuted"
   ],
   "note": "Missing: numbers near the ends of the range of double, of which it is false (C186_refuted). Proved for coordinates that before and after the change are multiples of 2^-300 within 2^480."
  },
  {
   "property": "C187",
   "status": "proved",
   "theorems": [
    "Wis.C187_discriminator",
    "Wis.C187_wisard",
    "Wis.C187_clusWisard",
    "Wis.C187_clusWisard_successful"
   ],
   "note": "A save through files asks that their names are new and that nobody touches them until they are read; C33, C36 and C93 show what happens otherwise."
  },
  {
   "property": "C188",
   "status": "proved",
   "theorems": [
    "Wis.C188_votes",
    "Wis.C188_lax",
    "Wis.C188_wisard",
    "Wis.C188_clusWisard",
    "Wis.C188_answer_may_change"
   ],
   "note": "C188_wisard is about single trainings and leaveOneOut: the batch call train(images, labels) compares confidence with the number of RAMs (C49, C63)."
  },
  {
   "property": "C189",
   "status": "proved",
   "theorems": [
    "Wis.C189_common",
    "Wis.C189_nested",
    "Wis.C189_default",
    "Wis.C189_needs_nesting",
    "Wis.C189_needs_whole_rams"
   ],
   "note": "The counts are assumed not to overflow a 32-bit int (C87)."
  },
  {
   "property": "C19",
   "status": "partial",
   "theorems": [
    "Wis.C19_indexes_partial",
    "Wis.C19_negative_indexes_accepted"
   ],
   "note": "negative indexes are accepted (refuted for every entry size); the rest is proved"
  },
  {
   "property": "C190",
   "status": "proved",
   "theorems": [
    "Wis.C190_dataset",
    "Wis.C190_one_file",
    "Wis.C190_one_sample"
   ],
   "note": ""
  },
  {
   "property": "C191",
   "status": "proved",
   "theorems": [
    "Wis.C191_scrambled",
    "Wis.C191_discriminator",
    "Wis.C191_clusWisard"
   ],
   "note": ""
  },
  {
   "property": "C192",
   "status": "proved",
   "theorems": [
    "Wis.C192_shuffle",
    "Wis.C192_wiring"
   ],
   "note": "With libstdc++'s random_shuffle, which is modelled after bits/stl_algo.h (not in /repo)."
  },
  {
   "property": "C193",
   "status": "proved",
   "theorems": [
    "Wis.C193_mental",
    "Wis.C193_discriminator",
    "Wis.C193_synthetic"
   ],
   "note": ""
  },
  {
   "property": "C194",
   "status": "proved",
   "theorems": [
    "Wis.C194_votes",
    "Wis.C194_recognised",
    "Wis.C194_address_size",
    "Wis.C194_wisard"
   ],
   "note": ""
  },
  {
   "property": "C195",
   "status": "proved",
   "theorems": [
    "Wis.C195_merge",
    "Wis.C195_mental"
   ],
   "note": ""
  },
  {
   "property": "C196",
   "status": "proved",
   "theorems": [
    "Wis.C196_votes",
    "Wis.C196_mental"
   ],
   "note": ""
  },
  {
   "property": "C197",
   "status": "proved",
   "theorems": [
    "Wis.C197_wisard",
    "Wis.C197_votes",
    "Wis.C197_constant",
    "Wis.C197_copies"
   ],
   "note": ""
  },
  {
   "property": "C198",
   "status": "proved",
   "theorems": [
    "Wis.C198_votes",
    "Wis.C198_mental",
    "Wis.C198_scores"
   ],
   "note": ""
  },
  {
   "property": "C199",
   "status": "proved",
   "theorems": [
    "Wis.C199_wisard",
    "Wis.C199_votes",
    "Wis.C199_mental"
   ],
   "note": ""
  },
  {
   "property": "C20",
   "status": "partial",
   "theorems": [
    "Wis.C20_inside_wiring_no_out_of_bounds_partial",
    "Wis.C20_bad_mapping_accepted"
   ],
   "note": "first half proved; second half refuted for every out-of-range mapping"
  },
  {
   "property": "C200",
   "status": "proved",
   "theorems": [
    "Wis.C200_scores"
   ],
   "note": ""
  },
  {
   "property": "C21",
   "status": "proved",
   "theorems": [
    "Wis.C21_wrong_length_rejected",
    "Wis.C21_right_length_accepted"
   ],
   "note": "every state"
  },
  {
   "property": "C22",
   "status": "partial",
   "theorems": [
    "Wis.C22_too_big_value_rejected_partial",
    "Wis.C22_failed_train_changes_votes"
   ],
   "note": "rejection proved; a failed train increments the count in every state (proved) and may change votes (witness): not atomic"
  },
  {
   "property": "C23",
   "status": "proved",
   "theorems": [
    "Wis.C23_number_of_trainings"
   ],
   "note": ""
  },
  {
   "property": "C24",
   "status": "proved",
   "theorems": [
    "Wis.C24_batch_is_sequence"
   ],
   "note": "every state"
  },
  {
   "property": "C25",
   "status": "proved",
   "theorems": [
    "Wis.C25_bininput_and_list_interchangeable"
   ],
   "note": "every state"
  },
  {
   "property": "C26",
   "status": "proved",
   "theorems": [
    "Wis.C26_memory_accounting"
   ],
   "note": "every state, also for failing calls"
  },
  {
   "property": "C27",
   "status": "proved",
   "theorems": [
    "Wis.C27_json_roundtrip"
   ],
   "note": "for every discriminator that learnt at least one image, after any history of (also failing) calls; the text must stay below 2^31 bytes. Here at the level of JSON values; C91 is the same for the text itself."
  },
  {
   "property": "C28",
   "status": "partial",
   "theorems": [
    "Wis.C28_untrained_reload_throws",
    "Wis.C28_untrained_huge_reload_throws"
   ],
   "note": "false of the code: refuted for every untrained discriminator, with and without huge"
  },
  {
   "property": "C29",
   "status": "partial",
   "theorems": [
    "Wis.C29_fresh_file_roundtrip_partial",
    "Wis.C29_collision_returns_old_data"
   ],
   "note": "proved for a file name that does not exist yet; false when the name exists (append): the reload then returns the older data"
  },
  {
   "property": "C30",
   "status": "proved",
   "theorems": [
    "Wis.C30_handle_text_roundtrip"
   ],
   "note": "text below 2^31 bytes"
  },
  {
   "property": "C31",
   "status": "proved",
   "theorems": [
    "Wis.C31_compare_iff_same",
    "Wis.C31_compare_equivalence"
   ],
   "note": ""
  },
  {
   "property": "C32",
   "status": "partial",
   "theorems": [
    "Wis.C32_reading_present_partial",
    "Wis.C32_data_terminates_partial",
    "Wis.C32_get_changes_handle",
    "Wis.C32_getAddr_changes_handle",
    "Wis.C32_data_diverges"
   ],
   "note": "false of the code: reading an absent RAM or address inserts it, data() does not end with a negative index; true for present ones"
  },
  {
   "property": "C33",
   "status": "proved",
   "theorems": [
    "Wis.C33_json_roundtrip",
    "Wis.C33_huge_roundtrip"
   ],
   "note": "for labels that exist or are not named by the mapping option (see C34); also through files (huge=true) that did not exist before"
  },
  {
   "property": "C34",
   "status": "partial",
   "theorems": [
    "Wis.C34_existing_wiring_kept_partial",
    "Wis.C34_mapping_lost"
   ],
   "note": "false of the code: the mapping option is not saved; existing classes keep their wiring"
  },
  {
   "property": "C35",
   "status": "partial",
   "theorems": [
    "Wis.C35_empty_wisard_reloads_partial",
    "Wis.C35_discriminator_reload_throws",
    "Wis.C35_wisard_reload_throws"
   ],
   "note": "false of the code: reload throws for every discriminator and every Wisard with a class; works for a Wisard without classes"
  },
  {
   "property": "C36",
   "status": "partial",
   "theorems": [
    "Wis.C36_json_roundtrip_partial",
    "Wis.C36_successful_histories_partial",
    "Wis.C36_huge_roundtrip_partial",
    "Wis.C36_unsupervised_base_refuted"
   ],
   "note": "Full round trip (indistinguishable under any further training and queries) for every history whose clusters can be saved; proved to include every history of successful training calls when base = 2 or without unsupervised training; in memory and through files. False as stated: with base != 2 the unsupervised cluster is reloaded with a different base (refuted concretely). Clusters holding a discriminator none of whose trainings succeeded, or inserted by getMentalImage, cannot be saved."
  },
  {
   "property": "C37",
   "status": "proved",
   "theorems": [
    "Wis.C37_terminates",
    "Wis.C37_bound_attained",
    "Wis.C37_overflow_iff",
    "Wis.C37_overflow_attained"
   ],
   "note": "every vote table; bound largest vote + 1 rounds, and it is attained C37_overflow_iff says exactly when the counter overflows (undefined behaviour); C37_overflow_attained gives such votes."
  },
  {
   "property": "C38",
   "status": "proved",
   "theorems": [
    "Wis.C38_scores_at_least_threshold",
    "Wis.C38_scores_confidence_one",
    "Wis.C38_without_bleaching"
   ],
   "note": ""
  },
  {
   "property": "C39",
   "status": "proved",
   "theorems": [
    "Wis.C39_winner",
    "Wis.C39_empty_answer"
   ],
   "note": ""
  },
  {
   "property": "C40",
   "status": "proved",
   "theorems": [
    "Wis.C40_unique_winner"
   ],
   "note": ""
  },
  {
   "property": "C41",
   "status": "partial",
   "theorems": [
    "Wis.C41_lead_partial",
    "Wis.C41_margin_violated",
    "Wis.C41_confidence_zero"
   ],
   "note": "false of the code for c>=2: the check depends on the order of the labels (C41_margin_violated is a witness); the guaranteed lead is proved"
  },
  {
   "property": "C42",
   "status": "proved",
   "theorems": [
    "Wis.C42_searchBestConfidence_no_effect",
    "Wis.C42_searchBestConfidence_no_effect_model"
   ],
   "note": ""
  },
  {
   "property": "C43",
   "status": "proved",
   "theorems": [
    "Wis.C43_clear_win_kept"
   ],
   "note": ""
  },
  {
   "property": "C44",
   "status": "proved",
   "theorems": [
    "Wis.C44_trained_image_fully_active"
   ],
   "note": ""
  },
  {
   "property": "C45",
   "status": "proved",
   "theorems": [
    "Wis.C45_labels_isolated",
    "Wis.C45_votes_of_own_history"
   ],
   "note": ""
  },
  {
   "property": "C46",
   "status": "proved",
   "theorems": [
    "Wis.C46_order_irrelevant",
    "Wis.C46_order_irrelevant_mapping"
   ],
   "note": ""
  },
  {
   "property": "C47",
   "status": "proved",
   "theorems": [
    "Wis.C47_leaveOneOut_undoes_train",
    "Wis.C47_unknown_label_ignored",
    "Wis.C47_leaveMoreOut"
   ],
   "note": ""
  },
  {
   "property": "C48",
   "status": "proved",
   "theorems": [
    "Wis.C48_one_known_label_per_image",
    "Wis.C48_classes_are_trained_labels",
    "Wis.C48_python_same_labels"
   ],
   "note": ""
  },
  {
   "property": "C49",
   "status": "partial",
   "theorems": [
    "Wis.C49_batch_validated_partial",
    "Wis.C49_number_of_rams",
    "Wis.C49_mapping_not_counted"
   ],
   "note": "with the mapping option the confidence check counts RAMs the class does not have (C49_mapping_not_counted); otherwise proved"
  },
  {
   "property": "C50",
   "status": "partial",
   "theorems": [
    "Wis.C50_classify_empty_partial",
    "Wis.C50_train_empty_ub",
    "Wis.C50_pyClassify_empty_ub"
   ],
   "note": "classify from C++ is harmless; train and Python classify on an empty list are undefined behaviour (proved)"
  },
  {
   "property": "C51",
   "status": "proved",
   "theorems": [
    "Wis.C51_failing_batch_keeps_prefix"
   ],
   "note": ""
  },
  {
   "property": "C52",
   "status": "proved",
   "theorems": [
    "Wis.C52_activation_degree",
    "Wis.C52_mapping_exceeds_one"
   ],
   "note": "exact fractions; fails outside default wiring (C52_mapping_exceeds_one)"
  },
  {
   "property": "C53",
   "status": "proved",
   "theorems": [
    "Wis.C53_classes_degrees",
    "Wis.C53_python"
   ],
   "note": "exact fractions"
  },
  {
   "property": "C54",
   "status": "partial",
   "theorems": [
    "Wis.C54_confidence_partial",
    "Wis.C54_python_partial",
    "Wis.C54_tie_full_confidence",
    "Wis.C54_python_tie"
   ],
   "note": "false for ties (confidence 1 instead of 0) and for best score 0 (0/0); proved for a positive unique best score"
  },
  {
   "property": "C55",
   "status": "proved",
   "theorems": [
    "Wis.C55_limit",
    "Wis.C55_at_least_one",
    "Wis.C55_monotone",
    "Wis.C55_observable"
   ],
   "note": "Any history, failing calls included, any float rounding. C55_observable ties the number of discriminators to the number of mental images."
  },
  {
   "property": "C56",
   "status": "proved",
   "theorems": [
    "Wis.C56_counts",
    "Wis.C56_remembered"
   ],
   "note": "C56_remembered also shows that the image is remembered after any later calls."
  },
  {
   "property": "C57",
   "status": "proved",
   "theorems": [
    "Wis.C57_learns",
    "Wis.C57_exact"
   ],
   "note": "Learns is in Spec/Cluster.lean; C57_exact instantiates score and required score in exact arithmetic."
  },
  {
   "property": "C58",
   "status": "partial",
   "theorems": [
    "Wis.C58_trained_label_partial",
    "Wis.C58_unsafe_never"
   ],
   "note": "Holds for labels without '::' that do not end in ':'. False otherwise: C58_unsafe_never proves such a label is never returned."
  },
  {
   "property": "C59",
   "status": "partial",
   "theorems": [
    "Wis.C59_documented_partial",
    "Wis.C59_actual",
    "Wis.C59_refuted",
    "Wis.C59_refuted_concrete"
   ],
   "note": "The code violates the documented behaviour (cluswisard.cc:117-120 trains images[i] instead of images[labelless[i]]). C59_actual is the exact behaviour for every batch; C59_documented_partial: it is the documented one when the images without label are the first ones; C59_refuted: otherwise the result does not depend on the unlabelled image at all."
  },
  {
   "property": "C60",
   "status": "partial",
   "theorems": [
    "Wis.C60_too_many",
    "Wis.C60_none_valid",
    "Wis.C60_ignored_partial",
    "Wis.C60_refuted"
   ],
   "note": "More labels than images throw, no valid index throws, an invalid index is ignored unless there are as many labels as images; in that last case the call is undefined behaviour (C60_refuted)."
  },
  {
   "property": "C61",
   "status": "partial",
   "theorems": [
    "Wis.C61_accumulates_partial",
    "Wis.C61_forgets",
    "Wis.C61_undefined"
   ],
   "note": "Accumulates only when supervised classes exist and the cluster was initialised before; without supervised classes each call forgets the previous one (C61_forgets), and with supervised classes and no earlier unsupervised training it is undefined (C61_undefined)."
  },
  {
   "property": "C62",
   "status": "partial",
   "theorems": [
    "Wis.C62_known_partial",
    "Wis.C62_classification_partial",
    "Wis.C62_refuted",
    "Wis.C62_json_refuted"
   ],
   "note": "Holds for known labels, and for classification; for an unknown label an uninitialised cluster is inserted and later training with this label is undefined (C62_refuted). After getMentalImage of an unknown label json() has no defined result."
  },
  {
   "property": "C63",
   "status": "proved",
   "theorems": [
    "Wis.C63_validation"
   ],
   "note": ""
  },
  {
   "property": "C64",
   "status": "partial",
   "theorems": [
    "Wis.C64_strict_partial",
    "Wis.C64_refuted"
   ],
   "note": "False as documented: the only discriminator allowed learns every image whatever the threshold (C64_refuted). What holds: a discriminator with threshold examples requires score 1."
  },
  {
   "property": "C65",
   "status": "proved",
   "theorems": [
    "Wis.C65_isolation",
    "Wis.C65_independent"
   ],
   "note": ""
  },
  {
   "property": "C66",
   "status": "proved",
   "theorems": [
    "Wis.C66_make",
    "Wis.C66_intensity",
    "Wis.C66_negative"
   ],
   "note": "make() for every draw; negative pixels (untrained below zero) always come out 1."
  },
  {
   "property": "C67",
   "status": "partial",
   "theorems": [
    "Wis.C67_create_partial",
    "Wis.C67_refuted"
   ],
   "note": "False: make() on a blank mental image divides by zero (randint(0,-1) modulo 0). Construction itself is safe."
  },
  {
   "property": "C68",
   "status": "proved",
   "theorems": [
    "Wis.C68_shape",
    "Wis.C68_empty"
   ],
   "note": "For canvases without useDirection or of dimension 1 (otherwise C70_refuted), numberOfKernels exact in float (otherwise C81_refuted), output below 2^31 entries; the lower bound needs a non-empty sequence."
  },
  {
   "property": "C69",
   "status": "proved",
   "theorems": [
    "Wis.C69_nearest"
   ],
   "note": "Same hypotheses as C68."
  },
  {
   "property": "C70",
   "status": "partial",
   "theorems": [
    "Wis.C70_dim_one_partial",
    "Wis.C70_refuted"
   ],
   "note": "False for every dimension above 1 and every non-empty sequence; holds in dimension 1."
  },
  {
   "property": "C71",
   "status": "partial",
   "theorems": [
    "Wis.C71_too_long_partial",
    "Wis.C71_direction",
    "Wis.C71_refuted"
   ],
   "note": "False for short points (read before the check); long points are rejected."
  },
  {
   "property": "C72",
   "status": "partial",
   "theorems": [
    "Wis.C72_no_lower_bound_check_partial",
    "Wis.C72_negative_value_accepted_and_aliases"
   ],
   "note": "false of the code: refuted"
  },
  {
   "property": "C73",
   "status": "proved",
   "theorems": [
    "Wis.C73_valid_calls_succeed"
   ],
   "note": ""
  },
  {
   "property": "C74",
   "status": "proved",
   "theorems": [
    "Wis.C74_train_dataset"
   ],
   "note": ""
  },
  {
   "property": "C75",
   "status": "proved",
   "theorems": [
    "Wis.C75_valid_calls_succeed"
   ],
   "note": ""
  },
  {
   "property": "C76",
   "status": "proved",
   "theorems": [
    "Wis.C76_set_then_get"
   ],
   "note": ""
  },
  {
   "property": "C77",
   "status": "proved",
   "theorems": [
    "Wis.C77_discriminators",
    "Wis.C77_supervised"
   ],
   "note": "All histories; for semi-supervised calls the images are those the code actually gives to the class."
  },
  {
   "property": "C78",
   "status": "proved",
   "theorems": [
    "Wis.C78_winner"
   ],
   "note": ""
  },
  {
   "property": "C79",
   "status": "proved",
   "theorems": [
    "Wis.C79_config_roundtrip"
   ],
   "note": "searchBestConfidence is not saved; it has no effect."
  },
  {
   "property": "C80",
   "status": "proved",
   "theorems": [
    "Wis.C80_shuffle_no_effect"
   ],
   "note": ""
  },
  {
   "property": "C81",
   "status": "partial",
   "theorems": [
    "Wis.C81_all_active_partial",
    "Wis.C81_refuted",
    "Wis.C81_refuted_single"
   ],
   "note": "False when float rounds the number of kernels up (16777219 with IEEE floats); proved when the number is exact in float."
  },
  {
   "property": "C82",
   "status": "partial",
   "theorems": [
    "Wis.C82_create_partial",
    "Wis.C82_create_single_partial",
    "Wis.C82_reject",
    "Wis.C82_refuted",
    "Wis.C82_refuted_single",
    "Wis.C82_refuted_direction"
   ],
   "note": "False of the code from 2147483584 kernels on (the float 2147483648 is converted to int) and for useDirection above dimension 238609294 (int overflow); everything below is proved."
  },
  {
   "property": "C83",
   "status": "partial",
   "theorems": [
    "Wis.C83_same_labels",
    "Wis.C83_fields",
    "Wis.C83_activation_degree",
    "Wis.C83_classes_degrees_partial",
    "Wis.C83_confidence_partial",
    "Wis.C83_refuted",
    "Wis.C83_empty_ub"
   ],
   "note": "classesDegrees and confidence are per discriminator, not per class (C83_refuted); empty list is UB (C83_empty_ub). The rest is proved."
  },
  {
   "property": "C84",
   "status": "partial",
   "theorems": [
    "Wis.C84_batch_validated_partial",
    "Wis.C84_number_of_rams",
    "Wis.C84_empty_ub"
   ],
   "note": "Empty batch is UB (C84_empty_ub)."
  },
  {
   "property": "C85",
   "status": "proved",
   "theorems": [
    "Wis.C85_winner",
    "Wis.C85_limit",
    "Wis.C85_tie_order"
   ],
   "note": ""
  },
  {
   "property": "C86",
   "status": "proved",
   "theorems": [
    "Wis.C86_mental_image",
    "Wis.C86_mental_images"
   ],
   "note": "Values that fit an int, addresses below 2^31."
  },
  {
   "property": "C87",
   "status": "proved",
   "theorems": [
    "Wis.C87_mental_images",
    "Wis.C87_trained"
   ],
   "note": "Values that fit an int, addresses below 2^31."
  },
  {
   "property": "C88",
   "status": "proved",
   "theorems": [
    "Wis.C88_inside",
    "Wis.C88_train",
    "Wis.C88_classify"
   ],
   "note": "Non-empty labels, lists shorter than 2^62."
  },
  {
   "property": "C89",
   "status": "proved",
   "theorems": [
    "Wis.C89_roundtrip",
    "Wis.C89_dump_iff",
    "Wis.C89_dump_throws",
    "Wis.C89_injective"
   ],
   "note": "Conversion of floats to text and back is a parameter (FloatText) with the stated contract FloatOk."
  },
  {
   "property": "C90",
   "status": "proved",
   "theorems": [
    "Wis.C90_parse_total",
    "Wis.C90_parse_outcome",
    "Wis.C90_parsed_value",
    "Wis.C90_normal_form"
   ],
   "note": "Stack depth is outside the model; float conversion is a parameter that is right for what it reads."
  },
  {
   "property": "C91",
   "status": "proved",
   "theorems": [
    "Wis.C91_discriminator",
    "Wis.C91_wisard",
    "Wis.C91_wisard_huge",
    "Wis.C91_wisard_label_throws"
   ],
   "note": "Text of each RAM below 2^31 bytes. Labels of an unsaved mapping option are excluded in the statement (C34)."
  },
  {
   "property": "C92",
   "status": "proved",
   "theorems": [
    "Wis.C92_truncated",
    "Wis.C92_prefix_same"
   ],
   "note": ""
  },
  {
   "property": "C93",
   "status": "partial",
   "theorems": [
    "Wis.C93_clusWisard_partial",
    "Wis.C93_clusWisard_huge_partial",
    "Wis.C93_clusWisard_label_throws"
   ],
   "note": "The cases where C36 fails (unsupervised training with a base other than 2, uninitialised clusters left by getMentalImage) are excluded."
  },
  {
   "property": "C94",
   "status": "proved",
   "theorems": [
    "Wis.C94_wisard",
    "Wis.C94_wisard_order",
    "Wis.C94_clusWisard",
    "Wis.C94_clusWisard_order",
    "Wis.C94_discriminator",
    "Wis.C94_discriminator_order",
    "Wis.C94_kernelCanvas",
    "Wis.C94_kernelCanvas_order"
   ],
   "note": "What pybind11's cast accepts is a parameter (PyCasts)."
  },
  {
   "property": "C95",
   "status": "partial",
   "theorems": [
    "Wis.C95_known_used_partial",
    "Wis.C95_unknown_ignored",
    "Wis.C95_wisard_names",
    "Wis.C95_clusWisard_indexes_ignored"
   ],
   "note": "Refuted: unknown names are ignored by every constructor, and so is ClusWisard's documented option indexes. What holds: known options are used or refused."
  },
  {
   "property": "C96",
   "status": "proved",
   "theorems": [
    "Wis.C96_discriminator",
    "Wis.C96_wisard",
    "Wis.C96_growth"
   ],
   "note": "sizeof of the classes are parameters."
  },
  {
   "property": "C97",
   "status": "proved",
   "theorems": [
    "Wis.C97_size",
    "Wis.C97_defined",
    "Wis.C97_growth",
    "Wis.C97_null"
   ],
   "note": "sizeof of the classes are parameters. C97_null: a null pointer is left when the constructor of a discriminator throws after the left-hand side of the assignment was evaluated (allowed before C++17)."
  },
  {
   "property": "C98",
   "status": "proved",
   "theorems": [
    "Wis.C98_accepts_iff",
    "Wis.C98_json_accepted",
    "Wis.C98_unambiguous",
    "Wis.C98_other_refused",
    "Wis.C98_nul_ends"
   ],
   "note": "Grammar: Spec/JsonGrammar. strtod is the parameter FloatText; nesting depth unlimited."
  },
  {
   "property": "C99",
   "status": "proved",
   "theorems": [
    "Wis.C99_dump_is_json",
    "Wis.C99_discriminator",
    "Wis.C99_wisard"
   ],
   "note": "Trained models within the size limits of C27 and C33."
  }
 ]
}