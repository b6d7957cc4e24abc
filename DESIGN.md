# Formal model of pyfar/sofar in Lean 4: design

1. What is modelled, and how
2. Which parts of the code are modelled, which are not
3. Trusted base
4. Properties and proofs
5. Disagreements between claims and code (findings)
6. Tests of the theorems against wrong programs
7. Axioms per theorem

## 1. What is modelled, and how

A shallow model, function by function, of the Python package in /repo/sofar. The code was read as text and never
run. Exceptions are values; every mutating method is a function from the old object to (result or exception, new
object, emitted warnings and prints), so that the state left behind by a *failing* call is part of the model.

* Python `str` = list of characters; `dict` = association list in insertion order; numpy array = dtype kind, shape
  and row-major list of elements; numbers = exact rationals plus NaN and infinities; masked elements are explicit.
* `Obj` has the attributes of the object (`__dict__` without private names) and the private attributes
  `_convention`, `_custom`, `_dimensions`, `_api`, `_read_only_attr` and `_protected`.
* The conventions, verification rules, unit aliases, deprecations and upgrade tables are **parameters** (`Env`): the
  git submodule `sofa_conventions` is empty in /repo, and the theorems hold for every content of these tables. `Env`
  also holds the clock, the versions of sofar, and the conversion of values to text (`fmt` etc.).
* Memory (sharing of arrays and containers) is only modelled where it matters, in `Model/Heap.lean` for `Sofa.copy` and in
  `Model/Alias.lean` for assignments. `Model/Names.lean` has several names of the same object (`x = y`).

Layout of `lean/Verif`: `Model` (the model; every definition cites file and lines and states its simplifications),
`Spec` (small specifications that do not use the functions of the model), `Lemmas` (proofs), `Props` (one theorem per
claim or part of a claim, with an example beside it that meets the hypotheses; the shared example convention is in
`Props/Example.lean`). Theorems are named after the property they prove (`C23_…`). `_partial`: proved under conditions
that the claim does not mention. `_refuted`: the claim is false for the code, shown by a concrete witness.

## 2. Which parts of the code are modelled, which are not

| code | model | remarks |
|------|-------|---------|
| sofa.py `__init__`, `_convention_to_sofa`, `_load_convention`, `_reset_convention`, `_mandatory`, `_read_only` | Init, Object, Conventions | |
| sofa.py `__setattr__`, `__delattr__`, `protected`, `delete` | Object, Alias (assignments in memory), Lists (nested lists) | assigning to private names from outside of the class: `unmodelled` |
| sofa.py `add_variable`, `add_attribute`, `_add_entry`, `_add_custom_api_entry`, `add_missing` | Object, Init | |
| sofa.py `verify`, `_verify_value`, `_verify_unit`, `_verify_handle_issues`, `_get_size_and_shape_of_string_var` | Verify | bodies of the report are exact texts; number formatting is a parameter |
| sofa.py `get_dimension`, `_update_dimensions` | Verify, Init | |
| sofa.py `_get_reference_unit` | Misc | |
| sofa.py `upgrade_convention` | Upgrade | axes to be moved are two non negative numbers |
| sofa.py `copy` | Heap | `copy.deepcopy` with memo |
| sofa.py `info`, `inspect`, `list_dimensions` | Text | conversion of values to text is a parameter; opening the text file succeeds |
| io.py (all functions) | IO, NetCDF | binary format, compression and file locking are not modelled |
| utils.py `_verify_convention_and_version`, `_get_conventions`, `list_conventions`, `equals`, `_atleast_nd`, `_nd_newaxis`, `version`, `_complete_sofa` (all functions) | Conventions, Misc, Equals, Arr, Complete | a missing file `VERSION` is not modelled |
| programs that use several objects and files (public calls of sofa.py and io.py in any order) | History, Session, Names | variables hold different objects in Session, names refer to objects by address in Names; `inspect` to a file is not a statement |
| sofastream.py, all methods | Stream, Text, StreamLife | the attribute `_data`, which holds the latest result, is not modelled |
| update_conventions.py (all functions) | Csv, Update | parsing of the web page, decoding and number conversion are parameters (`Server`, `Lang`) |
| json files of the conventions, from writing (update_conventions.py) to loading (sofa.py, utils.py) | Compiled, Json | `json.dump` with `indent=4` and `json.load` of the standard library are modelled on texts (Json); the other modules use the dictionaries; integers fit into 64 bits; `glob` lists files in the order of the dictionary |

## 3. Trusted base

* **Lean 4.33.0 kernel**, and Mathlib/core modules that are imported. Axioms of every theorem in section 7; only
  `propext`, `Classical.choice` and `Quot.sound` occur. There are no own axioms, no `sorry`, no `native_decide`, no
  `bv_decide`, no `implemented_by`, no `unsafe`. Examples and witnesses use `decide +kernel`, i.e. evaluation in the
  kernel.
* **The model is a faithful reading of the code.** There is no extraction; this is checked by review (every
  definition cites its lines) only.
* **Python and numpy** as described in the comments of the model. In particular:
  - case mapping (`lower`, `upper`) is restricted to ASCII letters;
  - `float(s)` is exact and restricted to `digits[.digits]`; other spellings raise ValueError in the model;
  - dtypes are reduced to their kind; integer overflow, float precision and item sizes are not modelled;
  - lists that are assigned to attributes are given as the array that `np.array` makes from them, or as `ragged` (`Model/Lists` derives this
    from nested Python lists of numbers, texts and other objects; lists of arrays, complex numbers, integers beyond 64 bits and more
    than 64 levels are left out);
  - numpy ≥ 1.25 (`==` of arrays of incompatible shapes raises);
  - json: `float.__repr__` is a parameter, assumed to be a json number that `float` reads as the same number (`Spec.Exact`);
    recursion limit, limit of the digits of integers and single surrogates are not modelled;
  - `npt.assert_allclose` with exact numbers and `rtol = 1e-7`.
* **netCDF4**: a file is its list of dimensions, global attributes and variables. Strings are stored as ASCII
  characters (netCDF4 `stringtochar`), default fill values are read as masked data, arrays are broadcast on assignment
  to variables with fixed dimensions. Which names are valid, reserved or special, and which numbers are fill values is
  a parameter (`Nc`), and the theorems hold for every choice. Opening a file with mode `w` truncates it.
* **File system**: a table from paths to files, and a parameter that tells which paths can be written. Symbolic links,
  permissions beyond that and concurrent access are not modelled. Paths are POSIX paths.
* **Server** (update of the conventions): links and file contents are parameters that may raise. The local disk does
  not fail.

## 4. Properties and proofs

`properties.jsonl` lists the claims, `MANIFEST.json` the theorems for each claim and what is missing for full proofs.

| ids | subject | method |
|-----|---------|--------|
| C01–C10 | attribute access, custom data, protection | case analysis of every exit of the modelled functions, frame lemmas for dictionaries, induction over histories of public calls (C01) |
| C11 | copies | invariant of the deep copy (disjoint reachable cells, isomorphic graphs), induction over programs |
| C12–C18 | new objects, versions, missing data | fold invariants over the convention, order lemmas for versions |
| C19–C31, C57, C58 | verification | one lemma per phase in both directions: what success means (soundness), when no exception escapes (totality), and that conforming objects pass (completeness); the report is compared between the modes |
| C32–C42 | files | encode/decode lemma per variable, fold invariants for the loops of writing and reading; round trip for `Spec.Storable` objects |
| C43, C44 | streams | lookup lemmas over the written file |
| C45–C47 | comparison | loop lemma, case analysis over types, index lemmas for broadcasting |
| C48–C51 | upgrades | case analysis of exits, index lemma for `np.moveaxis` |
| C59–C65 | texts about objects and files, warnings of `equals` | one text per entry, by induction over the loops |
| C66, C67 | reference units, list of conventions | grammar of unit strings, file names in both directions |
| C68 | verification does not depend on the numbers in arrays | relational proof: one congruence lemma per phase for objects that agree up to the numbers |
| C69 | adding data to valid objects | frame lemma for the specification of valid objects, then completeness (C58) |
| C70 | exact content of the report | problems as a type with the condition for their presence and their line; every phase lists exactly the problems of its kind |
| C71 | deleting data from valid objects | frame lemma for the specification of valid objects after loading the convention, then completeness (C58) |
| C72 | second round trip | exact relation of written and read values (kind, elements, shape from the axes), idempotence of the axes and of stripping NUL, the read object can be stored without loss |
| C73 | any number of round trips | relation between written and read object with its convention loaded (`Resembles`): types, names, sizes and rules carry over, hence verification passes; all conditions hold again for the object that was read; induction over the sequence of round trips |
| C74 | warnings about versions | digits after `0.` give a number below one, both for `float` and for `parse`; the text is a part of the warning of `verify` in both modes; no other warning starts like the one about outdated versions, and the latest file (C14) has a higher version if any file has |
| C75 | content of compiled conventions | the parser of cells is equivalent to an inductive description (pieces between separators, trimmed text, numbers); the fold over rows keeps the last entry per name, and reordering does not change it |
| C76 | messages tell what happened | the printed events of each step are computed next to its effect on the names of the object, then appended in order |
| C77 | objects contain what the csv files describe | C75 and the compiled folder give the convention file; its lookup (C14), loading and the defaults of new objects (C12, C13) are composed, with an inductive description of values |
| C78 | checks use the convention that the object names | exact description of `_reset_convention` from C15 and C67; frames of verification, adding and writing give the rest |
| C79 | dimensions are known if types and shapes are in order | C70 gives the complete text; headings, lines and warnings begin with characters that are in no phrase, so a phrase lies within one of them |
| C80 | read only means read only in the current convention | no call changes the stored list of names (`Lemmas/ReadOnly`), which is compared with the flags of the file |
| C81 | conventions do not influence each other | the files are only used to look for names and versions and to load a file, both only see the files of the convention (`Lemmas/Independent`); then equality of all calls |
| C82 | streams give data exactly inside of with statements | every history ends in one of three situations that are described by lists of events (`Spec/StreamLife`), each fixes the file of the stream |
| C83 | all ways of reading a file agree | which entries can be stored, and the result, does not depend on the object they are stored in; the names in the file are recovered from the names of the object |
| C84 | objects and files of a program do not interfere | induction over the statements of a program; frame of each statement; content written does not depend on the disk; combination with C32, C34 and C73 |
| C85 | adding many data at once, `_complete_sofa` | induction over the calls; a syntactic check of the list of calls is evaluated once |
| C86 | text with the versions | the first line passes the conversion of line breaks unchanged |
| C87 | assigned data in memory: lists are copied, arrays are shared | separate regions of memory are kept by every operation; an invariant follows the shared address |
| C88 | objects with the same data give the same results whatever was called before | verify first replaces all private state it uses by a function of the data; two objects that differ only in private state meet after that |
| C89 | verdict and sizes do not depend on the order of the data | all checks are conjunctions over the set of the data, except for the sizes, where the last definition wins; if definitions agree the result is a function of the set |
| C90 | free texts and the time change nothing but themselves | objects that agree up to free texts stay so in every phase of the verification and every step of reading; the names that are not in the file are deleted after reading, so that no date of the new object is left |
| C91 | nested lists are stored index by index | the shape that is found is exactly the shape of rectangular lists (`Spec.Rect`); the row-major position of an index is the position of the item in the flattened list |
| C92 | json text round trip | reading the text of a value from the front consumes exactly this text, by induction on the value; every escape is decoded to the character it was made from |
| C93 | size of a dimension does not matter | the old sizes with the new size in one place fit to all data, so that the object follows its convention and C58 applies |
| C94 | spelling does not matter | verification is a conjunction of conditions (C25) of which only the rules see the text, and rules see it up to case and aliases |
| C95 | every rule acts on its own | a calculus of conditions that hold for a set of rules exactly if they hold for every rule alone, applied to each phase and to the reference object; a rule for missing data contributes an empty text |
| C96 | optional additions to conventions keep objects valid | the loaded convention before and after the update agree outside of the new names; each phase of the verification looks up the names of the object only; the reference object has the old names and some new names; for reading, the new data of new objects is deleted again since the file does not contain it |
| C97 | the order of the data in a file does not matter | loading different names in any order gives a permutation of the entries; convention data keep the order of the new object, and all custom variables of a verified file agree on the sizes, so the last definition is the same |
| C98 | the order of the data does not matter for the files written | every key adds one variable that depends only on the values of the object; additions of different variables commute up to the order in the file, and the size of a dimension is the same because the verification checked the shapes |
| C99 | laws of assignments | an assignment checks only the protection, the read only names and the existence of its own name, so a sequence is accepted if each assignment is accepted by the first object, and the result folds put over the stored values |
| C100 | the order of the rows of a convention does not matter | the rows with different names form the same dictionary up to the order; the defaults are set one by one with different names, and the phases of the verification only ask for entries by name |
| C101 | the order of the convention files does not matter | the file for a given version is unique, the maximum of the versions as numbers is unique, and everything else only depends on the loaded tables |
| C102 | the order of rules, aliases, deprecations and upgrades does not matter | the tables are only asked by name, and rules act one by one (C95) |
| C103 | adding missing data and upgrades do not depend on the order of the data | data is moved, removed and added by name; the objects stay permutations of each other at every step |
| C104 | streams do not depend on the order of the data in the file | everything is looked up by name, and names are unique in netCDF files |
| C105 | names of the same object show the same data, copies have names of their own | the address of a name changes only if the name is bound; new objects get new addresses |
| C52–C56 | update of the conventions | fold invariants over the folder, permutation lemma for csv tables |

## 5. Disagreements between claims and code (findings)

Each is proved by the named theorem with a concrete witness.

| theorem | disagreement |
|---------|--------------|
| `C01_refuted`, `C04_refuted` | `add_variable` with a ragged list raises after switching off the protection; the object stays unprotected |
| `C02_refuted` | names of methods of the class can be assigned |
| `C08_refuted` | adding, deleting and adding custom data again makes `verify` fail with a KeyError |
| `C09_refuted` | the documented attribute names `Data_Variable_Attribute` are never accepted |
| `C10_refuted` | `verify` that reports wrong types leaves an unprotected object unprotected |
| `C13_refuted` | optional data (API and date stamps) is part of objects that are created with mandatory data only |
| `C14_refuted`, `C15_refuted` | version 1.10 counts as older than 1.9; the name `A` loads the convention `A_B` |
| `C18_refuted` | `add_missing` gives default values with one dimension another shape than the constructor does, the object does not pass `verify` any more |
| `C19_refuted`, `C20_refuted` | `issue_handling='ignore'` raises internal exceptions; warnings alone are not returned |
| `C30_refuted` | the type of default values that `verify` adds is not checked: the second call reports errors, the first none |
| `C22_refuted` | byte strings are documented but always rejected |
| `C23_refuted`, `C24_refuted` | trailing dimensions are not checked; `FooData_Bar` is accepted as name |
| `C27_refuted` | a unit string without comma (separated by spaces) is never accepted for several units |
| `C32_refuted`, `C32_unreadable_refuted`, `C33_*_refuted` | written objects that change or can not be read; shapes after reading contradict the notes |
| `C35_refuted`, `C35_compression_refuted`, `C36_*_refuted` | files are truncated before their content is converted; verified objects that can not be written |
| `C38_alternatives_refuted`, `C39_refuted`, `C40_refuted`, `C41_*_refuted` | dimensions of custom data, file names with other endings, lost attributes, dead code for the shape of `Data_IR` and `Data_Delay` |
| `C43_refuted_*`, `C44_refuted` | names found or not found by streams; dimensions of size zero |
| `C45_refuted`, `C45_symmetry_refuted`, `C46_refuted` | `equals` fails for an object and itself, is not symmetric, ignores shapes that broadcast |
| `C48_*_refuted`, `C51_refuted` | returned targets; failing upgrades leave incomplete objects |
| `C49_refuted` | a rule that moves other data to `GLOBAL_DataType` replaces the data type of the target convention |
| `C53_refuted`, `C54_refuted`, `C54_refuted_twice`, `C56_refuted` | updates that never settle, lost or duplicate conventions, skipped conventions |
| `C57_refuted_units`, `C57_refuted_strings` | internal exceptions of `verify` |
| `C59_refuted`, `C59_refuted_note`, `C64_refuted` | `list_dimensions` fails for unknown data types; it names data that was deleted |
| `C60_refuted`, `C60_refuted_sizes` | `inspect` fails for plain strings as string variables, and shows rows as columns |
| `C61_refuted` | `info` shows all entries that contain the given name |
| `C62_refuted` | `sofa.protected = other.protected` always raises |
| `C63_refuted` | warnings of `equals` contain `{key}` instead of the name of the variable |
| `C65_refuted` | `SofaStream.inspect` fails for attributes of variables that are numbers |
| `C66_refuted` | `_get_reference_unit` fails for valid units that contain a space |
| `C67_refuted` | version 1.10 of a convention is listed and can be loaded, but objects of this version can not be verified |
| `C69_refuted` | lists with one custom dimension are accepted by `add_variable`, but the object is rejected by `verify`; problems of custom variables are reported twice |
| `C70_refuted` | a custom variable of wrong shape is listed twice in the report |
| `C73_refuted` | a custom variable with a dot in its name passes `verify` and is written, but `read_sofa` rejects the file because the name then contains an underscore |
| `C74_refuted` | of the versions 1.9 and 1.10, 1.9 counts as the latest: objects of version 1.9 are written without a warning |
| `C75_refuted_version` | the version 1.10 in a csv file becomes 1.1, because it is converted to a number and back |
| `C75_refuted_comment` | a comment that starts with a square bracket is parsed as list of numbers; the file can not be compiled |
| `C75_refuted_blank` | a blank line at the end of a csv file stops the compilation |
| `C76_refuted_contained` | `add_missing(mandatory=False)` prints "All mandatory data contained." although mandatory data is missing |
| `C77_refuted` | rows `A.B` and `A:B` of a csv file become the same attribute; one of them is lost without any message |
| `C78_refuted` | an object that names version 1.10 can not be verified although the file of this version exists |
| `C79_refuted` | `get_dimension` refuses an object whose only problem is the unit 'data of wrong type', because phrases are looked for in the whole report |
| `C80_refuted` | after an upgrade, read only data of the new convention can be changed, because the list of read only names is that of the old convention |
| `C80_refuted_single` | a single read only name is stored as text and compared by `in`: names that are part of it can not be assigned |
| `C81_refuted` | one json file without underscore in its name and no object of any convention can be verified (IndexError); `C81_no_object_verified` for all folders |
| `C81_refuted_prefix` | a convention `FIR_E` with a higher version is what `Sofa("FIR")` creates |
| `C82_refuted_before` | before the first `with` statement every access, also `hasattr`, raises RecursionError: `__getattr__` looks up `self._file` |
| `C82_refuted_nested` | leaving an inner `with` statement closes the file for the outer one |
| `C83_refuted` | the units of a variable `MetaData` are read by `read_sofa` and not found by streams |
| `C64_refuted_property` | without the attribute DataType, `list_dimensions` says that list_dimensions is not contained in the file, or gives the value of an attribute `list` |
| `C84_refuted` | a file that was written successfully can not be read any more after a later call failed to write to it |
| `C87_refuted` | after `sofa.Data_Delay = a`, `a[:] = nan` changes the object: arrays are stored without copy |
| `C87_read_only_refuted` | read only data of a protected object can be changed in place, `sofa.SourceUp[:] = 5` |
| `C88_refuted_inspect` | inspect with issue_handling='print' of data of wrong type fails for objects never verified (no attribute `_dimensions`), works for others |
| `C88_refuted_info` | info shows the convention loaded last, not the convention named by the data |
| `C89_refuted` | two custom variables with dimensions `q, I` and `q` and different sizes: valid in one order, invalid in the other |
| `C91_refuted` | `[1, 'a']` is stored as two texts |
| `C94_refuted` | A value in capital letters is accepted, but the data that the rules demand for this value is not: `GLOBAL_RoomType = 'Reverberant'` passes without `GLOBAL_RoomDescription` (sofa.py:1299-1325: only types of coordinates are converted to lower case before the specific dependencies are looked up) |
| `C97_refuted` | variables `Data.IR` and `Data_IR`: the last one wins silently |
| `C97_refuted_sizes` | a dimension named `Q, I`: the order of the variables decides if the file is valid |
| `C98_refuted` | two custom variables with different sizes of `Q`: only one of the two orders can be written |
| `C100_refuted` | two rows that define different sizes of `q`: a new object can be created with one order only |
| `C100_refuted_names` | two rows `New.Data` and `New:Data`: the last one decides about the default value |
| `C101_refuted` | versions 1.1 and 1.10: the latest version is the one that is found first |
| `C103_refuted` | two custom variables with dimensions `q, I` and `q` and different sizes: the upgrade succeeds in one order and fails in the other |

## 6. Tests of the theorems against wrong programs

`seeded/LOG.jsonl`: in a scratch copy, one definition of the model is changed like a realistic bug, and the project is
rebuilt. A theorem counts as failed if its proof breaks or if it depends on a lemma whose proof breaks. Theorems
that survived although their claim became false were tightened (last field).

## 7. Axioms per theorem

<!-- axioms:begin -->
* **propext** (7): `C27_separators_partial`, `C39_ending`, `C53_condition`, `C53_refuted`, `C54_refuted_twice`, `C66_reference`, `C66_refuted`
* **Quot.sound, propext** (61): `C02_assign_new_name_raises_partial`, `C02_refuted`, `C03_mandatory_not_deletable`, `C03_missing_raises`, `C03_optional_deletable`, `C04_refuted`, `C04_rejected_add_partial`, `C04_rejected_assignment`, `C04_rejected_deletion`, `C05_lists`, `C05_strings_and_arrays`, `C06_assignment_frame`, `C06_deletion_frame`, `C06_protected_frame`, `C09_add_variable_names`, `C101_listed_partial`, `C104_dimensions`, `C104_get`, `C104_inspect`, `C104_listed`, `C10_add_protects`, `C10_only_bool`, `C26_no_exception`, `C39_injective_partial`, `C39_refuted`, `C39_replaced`, `C39_suffix`, `C41_delay_refuted`, `C41_refuted`, `C52_declined`, `C52_download_fails`, `C54_compiled`, `C54_others`, `C54_refuted`, `C61_entry_partial`, `C61_invalid`, `C62_refuted`, `C62_set`, `C64_lists`, `C64_refuted_property`, `C65_shows`, `C65_succeeds_partial`, `C67_lists`, `C76_add_attribute`, `C76_add_variable`, `C82_exact_partial`, `C82_inside`, `C82_left`, `C82_refuted_before`, `C82_refuted_nested`, `C82_situations`, `C86_version`, `C87_arrays`, `C87_lists`, `C87_read_only_refuted`, `C87_refuted`, `C91_refuted`, `C92_defaults`, `C99_last_wins`, `C99_same`, `C99_undo`
* **Classical.choice, Quot.sound, propext** (321): `C01_new_object_partial`, `C01_read_only_partial`, `C01_refuted`, `C02_no_new_names_partial`, `C07_added_data`, `C07_survives`, `C08_add_again_partial`, `C08_refuted`, `C09_add_attribute_names_partial`, `C09_refuted`, `C100_new_partial`, `C100_read_partial`, `C100_refuted`, `C100_refuted_names`, `C100_sizes_partial`, `C100_verify_partial`, `C100_write_partial`, `C101_created_partial`, `C101_files_partial`, `C101_methods_partial`, `C101_programs_partial`, `C101_refuted`, `C102_files`, `C102_methods`, `C102_order_of_text`, `C102_programs`, `C102_rules`, `C102_rules_files`, `C103_add_missing_partial`, `C103_refuted`, `C103_upgrade_partial`, `C104_written`, `C105_apart`, `C105_bind`, `C105_copy`, `C105_either`, `C105_new`, `C105_plain`, `C105_reachable`, `C105_shared`, `C105_through`, `C10_add_missing_protects`, `C10_new_object`, `C10_read_protects`, `C10_refuted`, `C10_upgrade`, `C10_verify_protects`, `C10_verify_return_protects`, `C11_copy_kept`, `C11_independent`, `C11_original_kept`, `C11_same_data`, `C11_total`, `C12_new_object`, `C12_stamps`, `C13_mandatory_only_partial`, `C13_refuted`, `C14_decimal`, `C14_latest_partial`, `C14_refuted`, `C15_exact_lookup_partial`, `C15_refuted`, `C15_value_error`, `C16_names`, `C17_add_missing`, `C17_again`, `C18_add_missing_partial`, `C18_refuted`, `C18_verify_partial`, `C19_ignore_partial`, `C19_print`, `C19_raise_return`, `C19_refuted`, `C19_return_raise`, `C20_refuted`, `C20_returns_all_issues_partial`, `C21_adds_only_defaults`, `C21_data_unchanged`, `C21_raise_adds_nothing`, `C22_refuted`, `C22_types`, `C22_wrong_type_detected`, `C23_consistent_dimensions_partial`, `C23_first_dimensions`, `C23_refuted`, `C24_custom_names`, `C24_names_partial`, `C24_refuted`, `C25_lower_case_units`, `C25_no_false_alarm`, `C25_rules_hold`, `C25_violation_reported`, `C26_units`, `C26_units_unique`, `C27_refuted`, `C28_write_implies_read`, `C29_deprecated_not_written`, `C29_read_ignores_deprecations`, `C30_idempotent`, `C30_idempotent_modes_partial`, `C30_refuted`, `C30_return_partial`, `C31_conforming`, `C31_get_dimension`, `C31_unknown_dimension`, `C32_equal_partial`, `C32_refuted`, `C32_round_trip_partial`, `C32_unreadable_refuted`, `C33_scalar_refuted`, `C33_shape_partial`, `C33_trailing_refuted`, `C34_not_verified`, `C34_object_kept`, `C34_what_changes`, `C35_compression_refuted`, `C35_kept_partial`, `C35_refuted`, `C36_ascii_refuted`, `C36_shape_refuted`, `C36_writable_partial`, `C37_as_netcdf`, `C37_fields`, `C37_values`, `C37_without_verification`, `C38_alternatives_refuted`, `C38_custom_partial`, `C39_same_path`, `C40_contained_partial`, `C40_nothing_else_partial`, `C40_refuted`, `C41_shape_kept_partial`, `C42_missing`, `C43_missing_partial`, `C43_refuted_attribute`, `C43_refuted_global`, `C43_refuted_missing`, `C43_suffix`, `C43_values_partial`, `C44_names`, `C44_refuted`, `C44_size_partial`, `C45_order`, `C45_reflexive_partial`, `C45_refuted`, `C45_symmetric_partial`, `C45_symmetry_refuted`, `C45_verified_partial`, `C46_equal_objects_partial`, `C46_exact_partial`, `C46_refuted`, `C47_attr`, `C47_date`, `C47_global`, `C47_invalid`, `C48_data_unchanged`, `C48_outdated_refuted`, `C48_targets`, `C48_up_to_date_refuted`, `C49_mandatory_partial`, `C49_moved`, `C49_not_mentioned`, `C49_refuted`, `C49_removed`, `C49_target_partial`, `C50_moveaxis`, `C50_upgrade`, `C51_data_kept_partial`, `C51_refuted`, `C53_twice_partial`, `C54_mirror_partial`, `C55_order`, `C56_complete_partial`, `C56_refuted`, `C56_sound`, `C57_refuted_strings`, `C57_refuted_units`, `C57_reports_partial`, `C57_returns_partial`, `C58_accepted`, `C59_lists`, `C59_refuted`, `C59_refuted_note`, `C59_succeeds_partial`, `C60_refuted`, `C60_refuted_sizes`, `C60_shows`, `C60_sizes_partial`, `C60_succeeds_partial`, `C61_refuted`, `C61_selection`, `C63_each_partial`, `C63_refuted`, `C63_warns`, `C64_refuted`, `C64_succeeds_partial`, `C65_refuted`, `C66_unknown`, `C66_valid_partial`, `C67_loadable`, `C67_refuted`, `C67_valid_partial`, `C68_values`, `C69_added_partial`, `C69_refuted`, `C70_refuted`, `C70_report_partial`, `C70_returned_partial`, `C70_warnings_partial`, `C71_deleted`, `C71_orphans`, `C72_second_trip`, `C73_any_number_partial`, `C73_readable_partial`, `C73_refuted`, `C74_new_object`, `C74_outdated_partial`, `C74_read`, `C74_refuted`, `C74_stable_new`, `C74_stable_verify`, `C74_verify`, `C75_accepted_partial`, `C75_entries`, `C75_refuted_blank`, `C75_refuted_comment`, `C75_refuted_version`, `C76_add_missing`, `C76_read`, `C76_refuted_contained`, `C76_targets`, `C76_upgrade`, `C77_compiled_partial`, `C77_creates`, `C77_refuted`, `C77_updated_partial`, `C78_checks`, `C78_loaded_partial`, `C78_refuted`, `C78_unknown`, `C79_known_partial`, `C79_refused_partial`, `C79_refuted`, `C80_created_partial`, `C80_read_partial`, `C80_refuted`, `C80_refuted_single`, `C81_created_partial`, `C81_histories_partial`, `C81_methods_partial`, `C81_no_object_verified`, `C81_read_partial`, `C81_refuted`, `C81_refuted_prefix`, `C81_upgraded_partial`, `C81_written_partial`, `C83_as_netcdf`, `C83_refuted`, `C83_settings`, `C83_stream_partial`, `C84_alone`, `C84_files`, `C84_last_write_partial`, `C84_objects`, `C84_read_back_partial`, `C84_refuted`, `C84_writing_keeps`, `C85_added`, `C85_complete`, `C85_contained`, `C85_not_contained`, `C87_assignment`, `C87_others`, `C88_add_missing`, `C88_inspect_partial`, `C88_refuted_info`, `C88_refuted_inspect`, `C88_sizes`, `C88_upgrade`, `C88_verify`, `C88_write`, `C89_calls`, `C89_refuted`, `C89_sizes_partial`, `C89_verify_partial`, `C90_equal`, `C90_read`, `C90_text`, `C90_time`, `C90_verify_time`, `C90_write`, `C91_numbers`, `C91_raises`, `C91_texts`, `C92_ascii`, `C92_conventions`, `C92_injective`, `C92_roundtrip`, `C93_resized`, `C93_sizes`, `C94_case_partial`, `C94_refuted`, `C94_units`, `C95_created`, `C95_each`, `C95_fewer`, `C95_unknown`, `C96_created`, `C96_needed`, `C96_read`, `C96_valid`, `C97_agree_partial`, `C97_netcdf_partial`, `C97_read_partial`, `C97_refuted`, `C97_refuted_sizes`, `C97_verified_partial`, `C98_refuted`, `C98_trip_partial`, `C98_write_partial`, `C99_order`
<!-- axioms:end -->
