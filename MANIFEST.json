{
 "claims": [
  {
   "property": "C01",
   "status": "partial",
   "theorems": [
    "Sofar.C01_read_only_partial",
    "Sofar.C01_new_object_partial",
    "Sofar.C01_refuted"
   ],
   "note": "False in general (C01_refuted: add_variable with a ragged list leaves the object unprotected). Proved for all histories of calls that do not switch off the protection and do not add unconvertible values or private names, for every read only and mandatory entry, and for objects created by Sofa()."
  },
  {
   "property": "C02",
   "status": "partial",
   "theorems": [
    "Sofar.C02_assign_new_name_raises_partial",
    "Sofar.C02_no_new_names_partial",
    "Sofar.C02_refuted"
   ],
   "note": "Holds for all names except names of methods of the class, for which C02_refuted gives a counterexample."
  },
  {
   "property": "C03",
   "status": "proved",
   "theorems": [
    "Sofar.C03_mandatory_not_deletable",
    "Sofar.C03_optional_deletable",
    "Sofar.C03_missing_raises"
   ],
   "note": "Mandatory, optional and missing data."
  },
  {
   "property": "C04",
   "status": "partial",
   "theorems": [
    "Sofar.C04_rejected_assignment",
    "Sofar.C04_rejected_deletion",
    "Sofar.C04_rejected_add_partial",
    "Sofar.C04_refuted"
   ],
   "note": "Assignments and deletions in full. add_variable/add_attribute for values numpy can convert; C04_refuted shows that the claim is false for ragged lists."
  },
  {
   "property": "C05",
   "status": "proved",
   "theorems": [
    "Sofar.C05_strings_and_arrays",
    "Sofar.C05_lists"
   ],
   "note": ""
  },
  {
   "property": "C06",
   "status": "proved",
   "theorems": [
    "Sofar.C06_assignment_frame",
    "Sofar.C06_protected_frame",
    "Sofar.C06_deletion_frame"
   ],
   "note": ""
  },
  {
   "property": "C07",
   "status": "proved",
   "theorems": [
    "Sofar.C07_added_data",
    "Sofar.C07_survives"
   ],
   "note": "State after adding and after any number of convention resets."
  },
  {
   "property": "C08",
   "status": "partial",
   "theorems": [
    "Sofar.C08_refuted",
    "Sofar.C08_add_again_partial"
   ],
   "note": "False (C08_refuted: add, delete, add of custom data makes verify fail with KeyError). Proved when the convention is reset between deleting and adding again."
  },
  {
   "property": "C09",
   "status": "partial",
   "theorems": [
    "Sofar.C09_add_variable_names",
    "Sofar.C09_add_attribute_names_partial",
    "Sofar.C09_refuted"
   ],
   "note": "Exact characterisation of accepted names; C09_refuted shows that the documented form Data_Variable_Attribute is never accepted."
  },
  {
   "property": "C10",
   "status": "partial",
   "theorems": [
    "Sofar.C10_read_protects",
    "Sofar.C10_add_protects",
    "Sofar.C10_add_missing_protects",
    "Sofar.C10_new_object",
    "Sofar.C10_only_bool",
    "Sofar.C10_verify_protects",
    "Sofar.C10_verify_return_protects",
    "Sofar.C10_refuted",
    "Sofar.C10_upgrade"
   ],
   "note": "verify with 'raise' and verify with 'return' that returns None. C10_refuted: verify that returns or prints data of wrong type leaves an unprotected object unprotected."
  },
  {
   "property": "C11",
   "status": "proved",
   "theorems": [
    "Sofar.C11_total",
    "Sofar.C11_same_data",
    "Sofar.C11_independent",
    "Sofar.C11_original_kept",
    "Sofar.C11_copy_kept"
   ],
   "note": "copy.deepcopy is modelled with memo on a memory of cells (Model/Heap.lean); programs that use the objects are arbitrary sequences of attribute, dictionary, list and in-place array operations on whatever they can reach (Spec/Heap.lean). Not modelled: object arrays that contain mutable objects, class attributes."
  },
  {
   "property": "C12",
   "status": "proved",
   "theorems": [
    "Sofar.C12_new_object",
    "Sofar.C12_stamps"
   ],
   "note": ""
  },
  {
   "property": "C13",
   "status": "partial",
   "theorems": [
    "Sofar.C13_mandatory_only_partial",
    "Sofar.C13_refuted"
   ],
   "note": "False as stated (C13_refuted); the mandatory part is proved."
  },
  {
   "property": "C14",
   "status": "partial",
   "theorems": [
    "Sofar.C14_latest_partial",
    "Sofar.C14_decimal",
    "Sofar.C14_refuted"
   ],
   "note": "False for two-digit minor versions (C14_refuted). C14_decimal describes the loaded file exactly for all versions with one dot: the first of those with the largest decimal number."
  },
  {
   "property": "C15",
   "status": "partial",
   "theorems": [
    "Sofar.C15_value_error",
    "Sofar.C15_exact_lookup_partial",
    "Sofar.C15_refuted"
   ],
   "note": "False for versions containing other names (C15_refuted); proved for regular names."
  },
  {
   "property": "C16",
   "status": "proved",
   "theorems": [
    "Sofar.C16_names"
   ],
   "note": ""
  },
  {
   "property": "C17",
   "status": "proved",
   "theorems": [
    "Sofar.C17_add_missing",
    "Sofar.C17_again"
   ],
   "note": ""
  },
  {
   "property": "C18",
   "status": "partial",
   "theorems": [
    "Sofar.C18_add_missing_partial",
    "Sofar.C18_verify_partial",
    "Sofar.C18_refuted"
   ],
   "note": "False in general (C18_refuted); proved under the stated conditions on defaults."
  },
  {
   "property": "C19",
   "status": "partial",
   "theorems": [
    "Sofar.C19_raise_return",
    "Sofar.C19_return_raise",
    "Sofar.C19_print",
    "Sofar.C19_ignore_partial",
    "Sofar.C19_refuted"
   ],
   "note": "raise/return/print in full for objects with all mandatory data; C19_refuted: verify(issue_handling='ignore') raises an internal exception for an object whose type errors are reported by 'return'."
  },
  {
   "property": "C20",
   "status": "partial",
   "theorems": [
    "Sofar.C20_returns_all_issues_partial",
    "Sofar.C20_refuted"
   ],
   "note": "Errors (and warnings that accompany them) are returned; C20_refuted: with warnings only, 'return' gives None."
  },
  {
   "property": "C21",
   "status": "proved",
   "theorems": [
    "Sofar.C21_data_unchanged",
    "Sofar.C21_raise_adds_nothing",
    "Sofar.C21_adds_only_defaults"
   ],
   "note": ""
  },
  {
   "property": "C22",
   "status": "partial",
   "theorems": [
    "Sofar.C22_types",
    "Sofar.C22_wrong_type_detected",
    "Sofar.C22_refuted"
   ],
   "note": "Types of verified objects in full; C22_refuted: arrays of kind S are always rejected, contrary to the documentation."
  },
  {
   "property": "C23",
   "status": "partial",
   "theorems": [
    "Sofar.C23_consistent_dimensions_partial",
    "Sofar.C23_first_dimensions",
    "Sofar.C23_refuted"
   ],
   "note": "Sizes exist for all variables with uniform alternatives and shape not longer than the dimensions; C23_refuted: trailing dimensions beyond those of the convention are not checked."
  },
  {
   "property": "C24",
   "status": "partial",
   "theorems": [
    "Sofar.C24_names_partial",
    "Sofar.C24_custom_names",
    "Sofar.C24_refuted"
   ],
   "note": "Everything but the position of Data_ in the name; C24_refuted gives a variable FooData_Bar that verifies."
  },
  {
   "property": "C25",
   "status": "proved",
   "theorems": [
    "Sofar.C25_rules_hold",
    "Sofar.C25_lower_case_units",
    "Sofar.C25_violation_reported",
    "Sofar.C25_no_false_alarm"
   ],
   "note": "Soundness, completeness (violations reported) and absence of false alarms for rules that refer to ordinary names (not class members)."
  },
  {
   "property": "C26",
   "status": "proved",
   "theorems": [
    "Sofar.C26_units",
    "Sofar.C26_no_exception",
    "Sofar.C26_units_unique"
   ],
   "note": "A string identical to the reference is accepted as well."
  },
  {
   "property": "C27",
   "status": "partial",
   "theorems": [
    "Sofar.C27_refuted",
    "Sofar.C27_separators_partial"
   ],
   "note": "False for every alias table and reference with several units (C27_refuted); ',' and ', ' are interchangeable."
  },
  {
   "property": "C28",
   "status": "proved",
   "theorems": [
    "Sofar.C28_write_implies_read"
   ],
   "note": ""
  },
  {
   "property": "C29",
   "status": "proved",
   "theorems": [
    "Sofar.C29_deprecated_not_written",
    "Sofar.C29_read_ignores_deprecations"
   ],
   "note": ""
  },
  {
   "property": "C30",
   "status": "partial",
   "theorems": [
    "Sofar.C30_return_partial",
    "Sofar.C30_refuted",
    "Sofar.C30_idempotent",
    "Sofar.C30_idempotent_modes_partial"
   ],
   "note": "In full for issue_handling='raise'. For 'return' if no mandatory data is missing (any result), or if data is missing and the first call returns None, provided that added defaults have the prescribed type (C30_return_partial); C30_refuted: types of added defaults are not checked in the call that adds them."
  },
  {
   "property": "C31",
   "status": "proved",
   "theorems": [
    "Sofar.C31_get_dimension",
    "Sofar.C31_unknown_dimension",
    "Sofar.C31_conforming"
   ],
   "note": ""
  },
  {
   "property": "C32",
   "status": "partial",
   "theorems": [
    "Sofar.C32_equal_partial",
    "Sofar.C32_round_trip_partial",
    "Sofar.C32_refuted",
    "Sofar.C32_unreadable_refuted"
   ],
   "note": "Proved for objects that can be stored without loss (Spec.Storable): the file can be read and equals gives True. Refuted in general: one-dimensional custom variables accept arrays of any shape and change; some written files can not be read."
  },
  {
   "property": "C33",
   "status": "partial",
   "theorems": [
    "Sofar.C33_shape_partial",
    "Sofar.C33_trailing_refuted",
    "Sofar.C33_scalar_refuted"
   ],
   "note": "Shape after reading in terms of the dimensions for storable objects. Refuted: trailing singleton dimensions are kept (note 2), single values of variables with three dimensions are not scalars (note 3)."
  },
  {
   "property": "C34",
   "status": "proved",
   "theorems": [
    "Sofar.C34_not_verified",
    "Sofar.C34_what_changes",
    "Sofar.C34_object_kept"
   ],
   "note": "A failing verification leaves the whole disk unchanged; the disk only changes after a successful verification and only at the path of the file; the data of the object never changes."
  },
  {
   "property": "C35",
   "status": "partial",
   "theorems": [
    "Sofar.C35_refuted",
    "Sofar.C35_compression_refuted",
    "Sofar.C35_kept_partial"
   ],
   "note": "Refuted: the file is truncated before the content is converted (text that is not ASCII, compression > 9). Partial: failures before opening the file leave the disk unchanged."
  },
  {
   "property": "C36",
   "status": "partial",
   "theorems": [
    "Sofar.C36_writable_partial",
    "Sofar.C36_ascii_refuted",
    "Sofar.C36_shape_refuted"
   ],
   "note": "Proved for storable objects with ASCII text and names that the netCDF library accepts. Refuted: text that is not ASCII, and arrays with more dimensions than the convention prescribes."
  },
  {
   "property": "C37",
   "status": "proved",
   "theorems": [
    "Sofar.C37_fields",
    "Sofar.C37_as_netcdf",
    "Sofar.C37_values",
    "Sofar.C37_without_verification"
   ],
   "note": "Exactly the names of the file for every argument verify, also for read_sofa_as_netcdf; every value comes from the file (missing data masked, characters joined to texts)."
  },
  {
   "property": "C38",
   "status": "partial",
   "theorems": [
    "Sofar.C38_custom_partial",
    "Sofar.C38_alternatives_refuted"
   ],
   "note": "Custom data stays custom data with the same type; dimensions are the same if there is one alternative. Refuted: of several alternatives only one remains."
  },
  {
   "property": "C39",
   "status": "partial",
   "theorems": [
    "Sofar.C39_same_path",
    "Sofar.C39_suffix",
    "Sofar.C39_ending",
    "Sofar.C39_replaced",
    "Sofar.C39_refuted",
    "Sofar.C39_injective_partial"
   ],
   "note": "Same path for writing and reading, suffix appended once, for relative and absolute paths. Refuted: with_suffix replaces other endings, two names denote one file. Partial: injective for names without dots."
  },
  {
   "property": "C40",
   "status": "partial",
   "theorems": [
    "Sofar.C40_contained_partial",
    "Sofar.C40_nothing_else_partial",
    "Sofar.C40_refuted"
   ],
   "note": "All variables, global attributes and attributes of existing variables are written, and nothing else. Refuted: the attribute of a deleted optional variable is lost silently."
  },
  {
   "property": "C41",
   "status": "partial",
   "theorems": [
    "Sofar.C41_refuted",
    "Sofar.C41_delay_refuted",
    "Sofar.C41_shape_kept_partial"
   ],
   "note": "Refuted: the names in the file (Data.IR) are never found in data_keys and the last two names are concatenated. Partial: shapes are kept if there is not exactly one element."
  },
  {
   "property": "C42",
   "status": "proved",
   "theorems": [
    "Sofar.C42_missing"
   ],
   "note": "For every numeric variable with at least one dimension; scalar variables are not written by sofar."
  },
  {
   "property": "C43",
   "status": "partial",
   "theorems": [
    "Sofar.C43_values_partial",
    "Sofar.C43_missing_partial",
    "Sofar.C43_refuted_attribute",
    "Sofar.C43_refuted_global",
    "Sofar.C43_refuted_missing",
    "Sofar.C43_suffix"
   ],
   "note": "Proved for variables, global attributes and attributes of variables of every storable object written with success, and AttributeError for missing names, for names as prescribed by the standard. Refuted for variables whose name ends with Data (MetaData_Units is written but not found), global attributes with the name of a variable, and missing names that coincide with global attributes; names with more underscores raise ValueError; the stream does not add the suffix .sofa."
  },
  {
   "property": "C44",
   "status": "partial",
   "theorems": [
    "Sofar.C44_size_partial",
    "Sofar.C44_names",
    "Sofar.C44_refuted"
   ],
   "note": "Proved for all dimensions of at least one element and for unknown dimensions (ValueError in both cases). Refuted for size zero: an unlimited dimension is written."
  },
  {
   "property": "C45",
   "status": "partial",
   "theorems": [
    "Sofar.C45_reflexive_partial",
    "Sofar.C45_verified_partial",
    "Sofar.C45_refuted",
    "Sofar.C45_symmetry_refuted",
    "Sofar.C45_order",
    "Sofar.C45_symmetric_partial"
   ],
   "note": "False in general: comparing a verified object with non-ASCII string variables to itself raises (C45_refuted), and the relative tolerance makes equals asymmetric (C45_symmetry_refuted). Proved: order independence, reflexivity for typed ASCII data and for verified objects, symmetry for separated numbers."
  },
  {
   "property": "C46",
   "status": "partial",
   "theorems": [
    "Sofar.C46_equal_objects_partial",
    "Sofar.C46_exact_partial",
    "Sofar.C46_refuted"
   ],
   "note": "False in general: broadcasting makes arrays of different shapes equal (C46_refuted). Proved: names, types, attributes and elements agree up to this broadcasting, and an exact characterisation for equal shapes."
  },
  {
   "property": "C47",
   "status": "proved",
   "theorems": [
    "Sofar.C47_global",
    "Sofar.C47_date",
    "Sofar.C47_attr",
    "Sofar.C47_invalid"
   ],
   "note": "GLOBAL and DATE without conditions, ATTR for objects whose data is known to the convention, and invalid values raise."
  },
  {
   "property": "C48",
   "status": "partial",
   "theorems": [
    "Sofar.C48_data_unchanged",
    "Sofar.C48_targets",
    "Sofar.C48_up_to_date_refuted",
    "Sofar.C48_outdated_refuted"
   ],
   "note": "Data unchanged in all outcomes; the list of targets is returned if a row lists the version. Refuted: None (not []) if up to date, UnboundLocalError if the convention is deprecated and its version is not listed."
  },
  {
   "property": "C49",
   "status": "partial",
   "theorems": [
    "Sofar.C49_target_partial",
    "Sofar.C49_mandatory_partial",
    "Sofar.C49_not_mentioned",
    "Sofar.C49_moved",
    "Sofar.C49_removed",
    "Sofar.C49_refuted"
   ],
   "note": "Rules that move or remove convention, version or data type are excluded; the file of the target must contain its own name and version for the mandatory data. Untouched entries are unchanged for every rule and outcome. Refuted for a rule that moves other data to the data type (C49_refuted)."
  },
  {
   "property": "C50",
   "status": "proved",
   "theorems": [
    "Sofar.C50_moveaxis",
    "Sofar.C50_upgrade"
   ],
   "note": "For arrays of any rank and any pair of existing axes, and for data moved by a complete upgrade (singleton axes are appended first)."
  },
  {
   "property": "C51",
   "status": "partial",
   "theorems": [
    "Sofar.C51_refuted",
    "Sofar.C51_data_kept_partial"
   ],
   "note": "Refuted by a rule whose source is missing: the object keeps the new convention name, is incomplete and unprotected. Proved: everything not rewritten or mentioned by the rule is kept in all outcomes."
  },
  {
   "property": "C52",
   "status": "proved",
   "theorems": [
    "Sofar.C52_declined",
    "Sofar.C52_download_fails"
   ],
   "note": "Every server, every local state, every answer other than 'y' (including exceptions of input). C52_download_fails adds that an unreadable convention on the server stops the update before anything is changed."
  },
  {
   "property": "C53",
   "status": "partial",
   "theorems": [
    "Sofar.C53_twice_partial",
    "Sofar.C53_condition",
    "Sofar.C53_refuted"
   ],
   "note": "C53_twice_partial: the second update is a no-op if normalising the offered contents twice is the same as once (C53_condition gives a sufficient condition). C53_refuted: a line with two trailing tabs is updated again and again."
  },
  {
   "property": "C54",
   "status": "partial",
   "theorems": [
    "Sofar.C54_mirror_partial",
    "Sofar.C54_others",
    "Sofar.C54_compiled",
    "Sofar.C54_refuted",
    "Sofar.C54_refuted_twice"
   ],
   "note": "C54_mirror_partial, C54_compiled for confirmed updates without exception; C54_others for every outcome. C54_refuted: a newly deprecated convention without json file is lost; C54_refuted_twice: duplicate links stop the update before compiling."
  },
  {
   "property": "C55",
   "status": "proved",
   "theorems": [
    "Sofar.C55_order"
   ],
   "note": "Every csv file that can be read. Decoding and conversion of numbers are parameters (structure Lang)."
  },
  {
   "property": "C56",
   "status": "partial",
   "theorems": [
    "Sofar.C56_sound",
    "Sofar.C56_complete_partial",
    "Sofar.C56_refuted"
   ],
   "note": "C56_sound holds for all lists. C56_complete_partial needs lists without duplicates and without neighbouring conventions that are excluded or missing. C56_refuted: the second of two neighbouring missing conventions is not reported, and an excluded convention is compared."
  },
  {
   "property": "C57",
   "status": "partial",
   "theorems": [
    "Sofar.C57_reports_partial",
    "Sofar.C57_returns_partial",
    "Sofar.C57_refuted_units",
    "Sofar.C57_refuted_strings"
   ],
   "note": "False in general: a numeric variable named '...Units' makes verify(mode='write') fail with an AttributeError, a string array with two axes makes verify fail inside numpy (refutations). Proved for all objects that can be checked (Spec.Checkable: known names, string variables with one axis, every dimension has a size) and rules that fit the convention (Spec.RegularRules)."
  },
  {
   "property": "C58",
   "status": "proved",
   "theorems": [
    "Sofar.C58_accepted"
   ],
   "note": "Completeness of verify: Spec.Conforms is stated without the modelled functions; holds for checkable objects (the condition under which verify does not crash, C57)."
  },
  {
   "property": "C59",
   "status": "partial",
   "theorems": [
    "Sofar.C59_lists",
    "Sofar.C59_succeeds_partial",
    "Sofar.C59_refuted",
    "Sofar.C59_refuted_note"
   ],
   "note": "C59_lists covers every successful call. C59_succeeds_partial: succeeds for data types FIR..., TF... and SOS.... C59_refuted: UnboundLocalError for other data types although get_dimension works; C59_refuted_note: names data that the object does not contain."
  },
  {
   "property": "C60",
   "status": "partial",
   "theorems": [
    "Sofar.C60_shows",
    "Sofar.C60_succeeds_partial",
    "Sofar.C60_refuted",
    "Sofar.C60_sizes_partial",
    "Sofar.C60_refuted_sizes"
   ],
   "note": "C60_shows covers every successful call (no variable with empty dimensions). C60_refuted: AttributeError for a verified object with a plain string as string variable; C60_refuted_sizes: vectors are verified as rows and shown as columns. C60_sizes_partial: the shown sizes agree with get_dimension for numeric arrays with two or more axes."
  },
  {
   "property": "C61",
   "status": "partial",
   "theorems": [
    "Sofar.C61_selection",
    "Sofar.C61_invalid",
    "Sofar.C61_entry_partial",
    "Sofar.C61_refuted"
   ],
   "note": "C61_selection and C61_invalid hold for all objects. C61_entry_partial: names that are not part of other names; C61_refuted: otherwise all entries whose names contain the given name are shown."
  },
  {
   "property": "C62",
   "status": "partial",
   "theorems": [
    "Sofar.C62_set",
    "Sofar.C62_refuted"
   ],
   "note": "C62_set: True and False can be set, everything else raises ValueError. C62_refuted: the value of the property can never be assigned, it is a numpy.bool_ and not a bool."
  },
  {
   "property": "C63",
   "status": "partial",
   "theorems": [
    "Sofar.C63_warns",
    "Sofar.C63_each_partial",
    "Sofar.C63_refuted"
   ],
   "note": "C63_warns: for all objects. C63_each_partial: one warning per difference, with the name for attributes and different types. C63_refuted: warnings for variables contain '{key}' instead of the name."
  },
  {
   "property": "C64",
   "status": "partial",
   "theorems": [
    "Sofar.C64_refuted_property",
    "Sofar.C64_lists",
    "Sofar.C64_succeeds_partial",
    "Sofar.C64_refuted"
   ],
   "note": "C64_lists covers every successful call. C64_succeeds_partial: succeeds for files written by sofar with data types FIR..., TF... and SOS.... C64_refuted: UnboundLocalError for other data types. C64_refuted_property: without the attribute DataType the message names list_dimensions, or the value of an unrelated attribute is given."
  },
  {
   "property": "C65",
   "status": "partial",
   "theorems": [
    "Sofar.C65_shows",
    "Sofar.C65_succeeds_partial",
    "Sofar.C65_refuted"
   ],
   "note": "C65_shows covers every successful call. C65_succeeds_partial: attributes of variables are text and variables have dimensions. C65_refuted: TypeError if a variable has a number as attribute."
  },
  {
   "property": "C66",
   "status": "partial",
   "theorems": [
    "Sofar.C66_reference",
    "Sofar.C66_unknown",
    "Sofar.C66_valid_partial",
    "Sofar.C66_refuted"
   ],
   "note": "C66_reference and C66_unknown describe every outcome for every separator. C66_refuted: a unit that contains a space is accepted by _verify_unit but raises KeyError. C66_valid_partial: units without spaces."
  },
  {
   "property": "C67",
   "status": "partial",
   "theorems": [
    "Sofar.C67_lists",
    "Sofar.C67_loadable",
    "Sofar.C67_valid_partial",
    "Sofar.C67_refuted"
   ],
   "note": "C67_lists and C67_loadable hold for all regular file names. C67_refuted: versions with two digits after the dot are listed and loaded but never verified; C67_valid_partial: versions like 1.0."
  },
  {
   "property": "C68",
   "status": "proved",
   "theorems": [
    "Sofar.C68_values"
   ],
   "note": "Arrays of the same form: kind, shape, number of elements and the texts of their types agree. The variable is not the version of the convention (which is text)."
  },
  {
   "property": "C69",
   "status": "partial",
   "theorems": [
    "Sofar.C69_added_partial",
    "Sofar.C69_refuted"
   ],
   "note": "C69_added_partial: the stored value fits; the result satisfies the hypotheses again, so any number of additions is covered. C69_refuted: one-dimensional lists with a custom dimension are stored as rows and rejected by verify."
  },
  {
   "property": "C70",
   "status": "partial",
   "theorems": [
    "Sofar.C70_report_partial",
    "Sofar.C70_returned_partial",
    "Sofar.C70_warnings_partial",
    "Sofar.C70_refuted"
   ],
   "note": "C70_report_partial, C70_returned_partial and C70_warnings_partial give the exact lines and warnings for objects that can be checked (C57); false that every problem is named once: custom variables of wrong shape are listed twice (C70_refuted)."
  },
  {
   "property": "C71",
   "status": "proved",
   "theorems": [
    "Sofar.C71_deleted",
    "Sofar.C71_orphans"
   ],
   "note": "Deleting data that nothing depends on from an object that follows its convention: the call succeeds, only this data is removed, verify passes, and the object follows its convention again. Conversely a custom variable can be deleted although its attributes remain, and verify rejects the object then (C71_orphans)."
  },
  {
   "property": "C72",
   "status": "proved",
   "theorems": [
    "Sofar.C72_second_trip"
   ],
   "note": "The object that was read from a file is a fixed point: writing and reading it again gives identical values (type, shape, every element) and identical convention and custom entries. Conditions: the first object can be stored without loss, no dimension is called s, not all text is empty or NUL; the second write and read succeed (C73 shows when this is the case)."
  },
  {
   "property": "C73",
   "status": "partial",
   "theorems": [
    "Sofar.C73_readable_partial",
    "Sofar.C73_any_number_partial",
    "Sofar.C73_refuted"
   ],
   "note": "Proved for objects that are Spec.Portable (can be stored without loss, names accepted by the netCDF library, ASCII text in string variables, lower case dimensions at the same place in all alternatives, custom entries as made by add_variable and add_attribute) and conventions that can be loaded in all ways: reading succeeds with every setting of verify, the object passes verify in both modes, and any number of further round trips succeeds without changing data. Refuted in general: a custom variable with a dot in its name can be written but not be read with verification."
  },
  {
   "property": "C74",
   "status": "partial",
   "theorems": [
    "Sofar.C74_verify",
    "Sofar.C74_new_object",
    "Sofar.C74_read",
    "Sofar.C74_stable_new",
    "Sofar.C74_stable_verify",
    "Sofar.C74_outdated_partial",
    "Sofar.C74_refuted"
   ],
   "note": "Preliminary versions: proved for all versions 0.x (C74_verify, C74_new_object, C74_read), if no convention file has an entry called protected. Outdated versions: equivalence proved for versions major.minor with a single digit after the dot. Refuted in general: with versions 1.9 and 1.10, objects of version 1.9 are written without a warning."
  },
  {
   "property": "C75",
   "status": "partial",
   "theorems": [
    "Sofar.C75_entries",
    "Sofar.C75_accepted_partial",
    "Sofar.C75_refuted_version",
    "Sofar.C75_refuted_comment",
    "Sofar.C75_refuted_blank"
   ],
   "note": "C75_entries: the content of every file that is compiled; C75_accepted_partial: all files with meaningful cells are compiled (the meaning of cells is the inductive CellMeans of Spec/Csv). Refuted in general: the version 1.10 becomes 1.1, a comment that starts with a square bracket and a blank line stop the compilation."
  },
  {
   "property": "C76",
   "status": "partial",
   "theorems": [
    "Sofar.C76_read",
    "Sofar.C76_add_missing",
    "Sofar.C76_upgrade",
    "Sofar.C76_targets",
    "Sofar.C76_add_variable",
    "Sofar.C76_add_attribute",
    "Sofar.C76_refuted_contained"
   ],
   "note": "Proved as stated for reading, upgrading, listing targets, adding variables and attributes, and for the list of added data. Refuted: add_missing(mandatory=False) prints 'All mandatory data contained.' although mandatory data is missing. Not claimed: conventions that declare data named `protected`."
  },
  {
   "property": "C77",
   "status": "partial",
   "theorems": [
    "Sofar.C77_compiled_partial",
    "Sofar.C77_updated_partial",
    "Sofar.C77_creates",
    "Sofar.C77_refuted"
   ],
   "note": "Proved for all rows whose name does not become the same attribute as the name of another row, and for files that are in only one of the two folders. Refuted without this: of two rows `A.B` and `A:B` one is lost without any message. Flags, dimensions and types are only claimed if the table names its own convention and version. Flags, dimensions, types and comments that are numbers are not modelled (folderEnv is none)."
  },
  {
   "property": "C78",
   "status": "partial",
   "theorems": [
    "Sofar.C78_loaded_partial",
    "Sofar.C78_checks",
    "Sofar.C78_unknown",
    "Sofar.C78_refuted"
   ],
   "note": "Proved for folders where files are named after convention and version, versions are written like 1.0, and different rows describe different attributes. Missing without this: versions with two digits after the dot can not be verified (C78_refuted), and rows can get lost (C77_refuted)."
  },
  {
   "property": "C79",
   "status": "partial",
   "theorems": [
    "Sofar.C79_refused_partial",
    "Sofar.C79_known_partial",
    "Sofar.C79_refuted"
   ],
   "note": "False if the report quotes one of the phrases, e.g. a unit with the text 'data of wrong type' (C79_refuted). Proved in both directions for objects that can be checked (C57), contain all mandatory data, and have no problem whose line contains one of the phrases."
  },
  {
   "property": "C80",
   "status": "partial",
   "theorems": [
    "Sofar.C80_created_partial",
    "Sofar.C80_read_partial",
    "Sofar.C80_refuted",
    "Sofar.C80_refuted_single"
   ],
   "note": "Exact for the flags of the file from which the object was created or read, after any sequence of public calls (C80_created_partial, C80_read_partial). Refuted for the flags of the convention to which an object was upgraded (C80_refuted), and for conventions with a single read only entry (C80_refuted_single)."
  },
  {
   "property": "C81",
   "status": "partial",
   "theorems": [
    "Sofar.C81_created_partial",
    "Sofar.C81_methods_partial",
    "Sofar.C81_histories_partial",
    "Sofar.C81_written_partial",
    "Sofar.C81_read_partial",
    "Sofar.C81_upgraded_partial",
    "Sofar.C81_refuted",
    "Sofar.C81_no_object_verified",
    "Sofar.C81_refuted_prefix"
   ],
   "note": "Proved for all calls if all files are named after their convention and version (C81_*_partial). Refuted for other files: a file without underscore in its name makes every verification fail (C81_refuted, in general C81_no_object_verified), and a convention with an underscore in its name hides the convention with the shorter name (C81_refuted_prefix)."
  },
  {
   "property": "C82",
   "status": "partial",
   "theorems": [
    "Sofar.C82_situations",
    "Sofar.C82_inside",
    "Sofar.C82_left",
    "Sofar.C82_exact_partial",
    "Sofar.C82_refuted_before",
    "Sofar.C82_refuted_nested"
   ],
   "note": "C82_situations, C82_inside, C82_left and C82_exact_partial cover all histories. Refuted before the first with statement, where every access ends with RecursionError (C82_refuted_before), and for nested statements, where the inner one closes the file for the outer one (C82_refuted_nested)."
  },
  {
   "property": "C83",
   "status": "partial",
   "theorems": [
    "Sofar.C83_as_netcdf",
    "Sofar.C83_settings",
    "Sofar.C83_stream_partial",
    "Sofar.C83_refuted"
   ],
   "note": "read_sofa_as_netcdf and the settings of read_sofa in full (C83_as_netcdf, C83_settings). Streams: for names as prescribed by the standard (C83_stream_partial); refuted for other names (C83_refuted)."
  },
  {
   "property": "C84",
   "status": "partial",
   "theorems": [
    "Sofar.C84_objects",
    "Sofar.C84_files",
    "Sofar.C84_writing_keeps",
    "Sofar.C84_alone",
    "Sofar.C84_last_write_partial",
    "Sofar.C84_refuted",
    "Sofar.C84_read_back_partial"
   ],
   "note": "Objects and files in full (C84_objects, C84_files, C84_writing_keeps, C84_alone). Content of files: for programs that do not write to the same file later (C84_last_write_partial), and equality with the written object for data that can be stored without loss (C84_read_back_partial); a later failing write destroys the file (C84_refuted)."
  },
  {
   "property": "C85",
   "status": "proved",
   "theorems": [
    "Sofar.C85_added",
    "Sofar.C85_complete",
    "Sofar.C85_contained",
    "Sofar.C85_not_contained"
   ],
   "note": "Sequences: C85_added. _complete_sofa: C85_complete (result), C85_contained and C85_not_contained (failures)."
  },
  {
   "property": "C86",
   "status": "proved",
   "theorems": [
    "Sofar.C86_version"
   ],
   "note": "C86_version; a missing file is not modelled."
  },
  {
   "property": "C87",
   "status": "partial",
   "theorems": [
    "Sofar.C87_assignment",
    "Sofar.C87_others",
    "Sofar.C87_lists",
    "Sofar.C87_arrays",
    "Sofar.C87_refuted",
    "Sofar.C87_read_only_refuted"
   ],
   "note": "Assignments in memory refine assignments of values (C87_assignment) and leave other objects as they are (C87_others). Ownership holds for lists (C87_lists) and fails for arrays, which are shared until the name is assigned again (C87_arrays, C87_refuted); read only data can be changed in place (C87_read_only_refuted)."
  },
  {
   "property": "C88",
   "status": "partial",
   "theorems": [
    "Sofar.C88_verify",
    "Sofar.C88_sizes",
    "Sofar.C88_write",
    "Sofar.C88_inspect_partial",
    "Sofar.C88_refuted_inspect",
    "Sofar.C88_refuted_info",
    "Sofar.C88_add_missing",
    "Sofar.C88_upgrade"
   ],
   "note": "Proved for verify, get_dimension, list_dimensions, write_sofa (the same file), add_missing, upgrade_convention and inspect with issue_handling='raise'. add_missing and upgrade_convention assume that no entry is called `protected`. False for inspect with other ways of handling issues (C88_refuted_inspect) and for info, which shows the remembered convention (C88_refuted_info). Assignments, deletions and equals use the remembered convention by design and are covered in C01-C04 and C44."
  },
  {
   "property": "C89",
   "status": "partial",
   "theorems": [
    "Sofar.C89_verify_partial",
    "Sofar.C89_sizes_partial",
    "Sofar.C89_calls",
    "Sofar.C89_refuted"
   ],
   "note": "Proved if no two variables define different sizes of the same dimension (lower case letters in the first alternative of the dimensions) and no custom variable is named like a method. False without the first condition (C89_refuted): the variable that comes last defines the size, so that the order of two calls of add_variable decides whether the object is valid."
  },
  {
   "property": "C90",
   "status": "proved",
   "theorems": [
    "Sofar.C90_text",
    "Sofar.C90_time",
    "Sofar.C90_verify_time",
    "Sofar.C90_read",
    "Sofar.C90_write",
    "Sofar.C90_equal"
   ],
   "note": "The condition on rules and tables is necessary: units and data with rules are checked (examples beside C90_text). C90_equal: objects created at different times are equal when the dates are excluded from the comparison."
  },
  {
   "property": "C91",
   "status": "partial",
   "theorems": [
    "Sofar.C91_numbers",
    "Sofar.C91_texts",
    "Sofar.C91_raises",
    "Sofar.C91_refuted"
   ],
   "note": "False for lists that mix numbers and texts: numbers become texts (C91_refuted). Proved for lists of numbers, lists of texts, and the condition under which lists are rejected."
  },
  {
   "property": "C92",
   "status": "proved",
   "theorems": [
    "Sofar.C92_roundtrip",
    "Sofar.C92_injective",
    "Sofar.C92_ascii",
    "Sofar.C92_conventions",
    "Sofar.C92_defaults"
   ],
   "note": "json.dump with indent=4 and json.load of the standard library are modelled. Assumption: the repr of a finite float is a json number that float() reads as the same float (Spec.Exact)."
  },
  {
   "property": "C93",
   "status": "proved",
   "theorems": [
    "Sofar.C93_resized",
    "Sofar.C93_sizes"
   ],
   "note": "Hypotheses: the object was verified before (its convention is loaded), entries of the convention are well formed (Spec.Checkable, Spec.RegularRules), the name and version of the convention are attributes, and no rule prescribes the size (Spec.FreeSize)."
  },
  {
   "property": "C94",
   "status": "partial",
   "theorems": [
    "Sofar.C94_units",
    "Sofar.C94_case_partial",
    "Sofar.C94_refuted"
   ],
   "note": "Units in full (C94_units), for rule sets that name units by names that the table of unit names maps to themselves. Other texts: for types of coordinates and values without consequences for other data (C94_case_partial). Refuted: a room that is reverberant must be described, but a room that is Reverberant passes without description (C94_refuted)."
  },
  {
   "property": "C95",
   "status": "proved",
   "theorems": [
    "Sofar.C95_each",
    "Sofar.C95_created",
    "Sofar.C95_fewer",
    "Sofar.C95_unknown"
   ],
   "note": ""
  },
  {
   "property": "C96",
   "status": "proved",
   "theorems": [
    "Sofar.C96_valid",
    "Sofar.C96_created",
    "Sofar.C96_needed",
    "Sofar.C96_read"
   ],
   "note": ""
  },
  {
   "property": "C97",
   "status": "partial",
   "theorems": [
    "Sofar.C97_read_partial",
    "Sofar.C97_verified_partial",
    "Sofar.C97_agree_partial",
    "Sofar.C97_refuted",
    "Sofar.C97_refuted_sizes",
    "Sofar.C97_netcdf_partial"
   ],
   "note": "False as stated, see C97_refuted and C97_refuted_sizes. Proved without verification if the data get different names in sofar, and with verification if in addition the dimensions are named by letters (C97_verified_partial) or no two variables define different sizes (C97_agree_partial)."
  },
  {
   "property": "C98",
   "status": "partial",
   "theorems": [
    "Sofar.C98_write_partial",
    "Sofar.C98_trip_partial",
    "Sofar.C98_refuted"
   ],
   "note": "False as stated, see C98_refuted. Proved (C98_write_partial) if no two variables define different sizes and no custom variable is named like a method. C98_trip_partial reads both files back; the data in the file must have different names in sofar and the dimensions are letters without the comma."
  },
  {
   "property": "C99",
   "status": "proved",
   "theorems": [
    "Sofar.C99_last_wins",
    "Sofar.C99_order",
    "Sofar.C99_undo",
    "Sofar.C99_same"
   ],
   "note": "The name `protected` is excluded: it changes which assignments are accepted (example beside C99_order). C99_order gives equal objects if the names exist; new names (unprotected objects) are stored in the order of the assignments."
  },
  {
   "property": "C100",
   "status": "partial",
   "theorems": [
    "Sofar.C100_new_partial",
    "Sofar.C100_sizes_partial",
    "Sofar.C100_verify_partial",
    "Sofar.C100_write_partial",
    "Sofar.C100_read_partial",
    "Sofar.C100_refuted",
    "Sofar.C100_refuted_names"
   ],
   "note": "False as stated, see C100_refuted and C100_refuted_names. Proved for new objects, the verification, writing and reading if the rows of a convention have different names in sofar, no row is called protected and no dimension is defined by two rows. Objects with custom data must not contain variables that define different sizes of the same dimension, and custom variables must not be named like methods."
  },
  {
   "property": "C101",
   "status": "partial",
   "theorems": [
    "Sofar.C101_created_partial",
    "Sofar.C101_methods_partial",
    "Sofar.C101_files_partial",
    "Sofar.C101_programs_partial",
    "Sofar.C101_listed_partial",
    "Sofar.C101_refuted"
   ],
   "note": "False as stated, see C101_refuted. Proved if all files are named after convention and version and different files of a convention have versions that are different as strings and as numbers."
  },
  {
   "property": "C102",
   "status": "proved",
   "theorems": [
    "Sofar.C102_methods",
    "Sofar.C102_files",
    "Sofar.C102_programs",
    "Sofar.C102_rules",
    "Sofar.C102_rules_files",
    "Sofar.C102_order_of_text"
   ],
   "note": "C102_order_of_text shows that error messages list the problems in the order of the rules."
  },
  {
   "property": "C103",
   "status": "partial",
   "theorems": [
    "Sofar.C103_add_missing_partial",
    "Sofar.C103_upgrade_partial",
    "Sofar.C103_refuted"
   ],
   "note": "Proved if neither the conventions nor the custom entries contain the name protected and, for upgrades with a verification, if no two variables of the upgraded object define different sizes of the same dimension and no custom variable is named like a method. False without the condition on the sizes (C103_refuted): the upgrade of one object succeeds, the upgrade of the other one ends with an error."
  },
  {
   "property": "C104",
   "status": "proved",
   "theorems": [
    "Sofar.C104_inspect",
    "Sofar.C104_get",
    "Sofar.C104_dimensions",
    "Sofar.C104_listed",
    "Sofar.C104_written"
   ],
   "note": "The format guarantees that no name is used twice in the same place (Spec.OnceNames); for written files this is proved. read_sofa_as_netcdf is covered by C97_netcdf_partial."
  },
  {
   "property": "C105",
   "status": "proved",
   "theorems": [
    "Sofar.C105_plain",
    "Sofar.C105_shared",
    "Sofar.C105_through",
    "Sofar.C105_apart",
    "Sofar.C105_copy",
    "Sofar.C105_bind",
    "Sofar.C105_new",
    "Sofar.C105_either",
    "Sofar.C105_reachable"
   ],
   "note": "Spec.Bound says that every name refers to an object that exists; it holds for the empty state and is kept by all statements. Sharing of arrays between objects is not part of this model; see C105_plain for the relation to Model/Session.lean."
  }
 ]
}