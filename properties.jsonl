{"id": "C01", "title": "Read-only data cannot change while the object is protected", "statement": "Starting from a protected Sofa object, no sequence of attribute assignments, delete, add_variable, add_attribute, add_missing, verify and get_dimension calls (each of which may succeed or raise) that never sets sofa.protected = False changes the value of a mandatory attribute that was flagged read only when the object was created.", "quantifier": "every convention database, every object, every finite history of public calls with arbitrary arguments", "why_tests_cant": "a test runs a few fixed call sequences; the claim is about every history, including histories in which calls raise half way", "anchors": ["sofar/sofa.py:Sofa.__setattr__", "sofar/sofa.py:Sofa.__delattr__", "sofar/sofa.py:Sofa._add_custom_api_entry", "sofar/sofa.py:Sofa.protected"]}
{"id": "C02", "title": "Assignment cannot add data to a protected object", "statement": "While sofa.protected is True, assigning to a name that is not already data of the object raises TypeError and leaves the object unchanged; in particular the set of data names never grows through plain assignment.", "quantifier": "every object, every name, every value", "why_tests_cant": "only a handful of names can be tried; the claim must hold for every string, including names of members of the class", "anchors": ["sofar/sofa.py:Sofa.__setattr__"]}
{"id": "C03", "title": "Mandatory data cannot be deleted from a protected object", "statement": "While sofa.protected is True, delete/delattr of data that the convention flags as mandatory raises TypeError and changes nothing; deleting non mandatory data removes exactly this entry; deleting something that is not there raises TypeError.", "quantifier": "every object, every name, every convention", "why_tests_cant": "quantifies over all conventions and all objects, not over the conventions shipped with a test", "anchors": ["sofar/sofa.py:Sofa.__delattr__", "sofar/sofa.py:Sofa.delete", "sofar/sofa.py:Sofa._mandatory"]}
{"id": "C04", "title": "A rejected modification leaves the object as it was", "statement": "If an assignment, delete, add_variable or add_attribute raises an exception, the object (data, protection, custom entries) is exactly what it was before the call.", "quantifier": "every object, every call with arbitrary arguments that ends in an exception", "why_tests_cant": "tests check that an exception is raised, not that every part of the state is untouched for every failing argument", "anchors": ["sofar/sofa.py:Sofa._add_entry", "sofar/sofa.py:Sofa._add_custom_api_entry", "sofar/sofa.py:Sofa.__setattr__"]}
{"id": "C05", "title": "Normal form of assigned values", "statement": "After a successful assignment of a str or numpy array the stored value is exactly that value; after assigning a number or a list the stored value is a scalar if there is a single element and otherwise an array with at least two dimensions holding the same elements in the same order.", "quantifier": "every assignable value (numbers, strings, rectangular nested lists of every depth, numpy arrays of every shape)", "why_tests_cant": "unbounded shapes and nesting depths", "anchors": ["sofar/sofa.py:Sofa.__setattr__"]}
{"id": "C06", "title": "Assignment and deletion touch only the named entry", "statement": "Assigning or deleting one entry never changes the value or the presence of any other entry, the relative order of the other entries, or the protection flag.", "quantifier": "every object, every pair of different names, every value", "why_tests_cant": "frame conditions range over all other entries", "anchors": ["sofar/sofa.py:Sofa.__setattr__", "sofar/sofa.py:Sofa.__delattr__"]}
{"id": "C07", "title": "Added custom data is registered and survives re-loading of the convention", "statement": "After a successful add_variable / add_attribute of a name that is not part of the convention the object holds the (normalised) value, the object is protected, and the type and dimensions of the entry are known to the object, also after any number of later convention resets (verify, add_missing, upgrade).", "quantifier": "every convention database, object, name, value, type and dimension string", "why_tests_cant": "the claim is about all later resets and all conventions", "anchors": ["sofar/sofa.py:Sofa._add_entry", "sofar/sofa.py:Sofa._add_custom_api_entry", "sofar/sofa.py:Sofa._reset_convention"]}
{"id": "C08", "title": "Custom data can be deleted and added again", "statement": "If custom data was added, deleted and added again, the object can still be verified: verify does not fail with an internal KeyError.", "quantifier": "every object and every custom entry", "why_tests_cant": "depends on a history of three calls on an arbitrary object", "anchors": ["sofar/sofa.py:Sofa._add_custom_api_entry", "sofar/sofa.py:Sofa.__delattr__", "sofar/sofa.py:Sofa._reset_convention"]}
{"id": "C09", "title": "Which attribute and variable names can be added", "statement": "add_variable accepts exactly the new names without underscore (with dimensions given); add_attribute accepts exactly the new names of the form Variable_Attribute where Variable is known to the convention or GLOBAL, including Data_Variable_Attribute as documented in its example (Data_Real_Units).", "quantifier": "every name string", "why_tests_cant": "all strings; the documented example itself is never executed by a test", "anchors": ["sofar/sofa.py:Sofa._add_entry", "sofar/sofa.py:Sofa.add_attribute"]}
{"id": "C10", "title": "API calls hand back a protected object", "statement": "After any successful call of verify, add_variable, add_attribute, add_missing or upgrade_convention (with a valid target), sofa.protected is True, whatever it was before; protected can be set to nothing but True or False.", "quantifier": "every object, every call", "why_tests_cant": "all reachable states, including unprotected ones", "anchors": ["sofar/sofa.py:Sofa.verify", "sofar/sofa.py:Sofa.add_missing", "sofar/sofa.py:Sofa.upgrade_convention", "sofar/sofa.py:Sofa.protected"]}
{"id": "C11", "title": "A copy is independent", "statement": "sofa.copy() has the same data as sofa, and no later sequence of assignments, deletions or in-place array modifications through the copy changes the original, and vice versa.", "quantifier": "every object (with any sharing of array buffers), every later history", "why_tests_cant": "aliasing has to be excluded for every history of in-place modifications", "anchors": ["sofar/sofa.py:Sofa.copy", "sofar/sofa.py:Sofa.__setattr__"]}
{"id": "C12", "title": "A new object holds exactly the data of its convention", "statement": "Sofa(convention, version=v) contains every entry of the convention file with its default value (API and date stamps excepted) and nothing else.", "quantifier": "every convention file", "why_tests_cant": "the shipped conventions are samples; update_conventions can install any convention", "anchors": ["sofar/sofa.py:Sofa.__init__", "sofar/sofa.py:Sofa._convention_to_sofa", "sofar/sofa.py:Sofa._load_convention"]}
{"id": "C13", "title": "mandatory=True returns only mandatory data", "statement": "Sofa(convention, mandatory=True) contains all mandatory entries of the convention and no optional entry.", "quantifier": "every convention file", "why_tests_cant": "all conventions; the existing test only compares the number of entries", "anchors": ["sofar/sofa.py:Sofa._convention_to_sofa"]}
{"id": "C14", "title": "The default version is the latest version", "statement": "Sofa(convention) uses the highest version of the convention among the available files, in the sense in which write_sofa decides whether a version is outdated.", "quantifier": "every set of available convention files in every directory order", "why_tests_cant": "directory order and the set of versions are unbounded", "anchors": ["sofar/sofa.py:Sofa._load_convention", "sofar/io.py:_write_sofa"]}
{"id": "C15", "title": "Convention and version lookup is exact", "statement": "A convention name and version that is accepted loads the file of exactly this name and version; unknown names and unknown versions raise ValueError.", "quantifier": "every name, every version string, every set of files", "why_tests_cant": "prefix clashes between names can only be excluded for all names by proof", "anchors": ["sofar/sofa.py:Sofa._load_convention", "sofar/utils.py:_verify_convention_and_version", "sofar/utils.py:_get_conventions"]}
{"id": "C16", "title": "sofar names never contain ':' or '.'", "statement": "All entry names of a loaded convention are free of ':' and '.', each name is the name in the file with ':' and '.' replaced by '_', and no entry is lost unless two names collide.", "quantifier": "every convention file", "why_tests_cant": "all names", "anchors": ["sofar/sofa.py:Sofa._load_convention"]}
{"id": "C17", "title": "add_missing adds exactly what is missing", "statement": "After add_missing(mandatory, optional) the object contains, in addition to its previous data (unchanged), exactly the convention's missing entries with the selected flags, each with its default value; calling it again changes nothing.", "quantifier": "every object, every convention, every flag combination", "why_tests_cant": "idempotence and frame conditions for all objects", "anchors": ["sofar/sofa.py:Sofa.add_missing"]}
{"id": "C18", "title": "Defaults added later are the defaults of a new object", "statement": "The default value that add_missing or verify adds for an entry has the same elements as the default of a newly created object and is detected with the same dimensions.", "quantifier": "every convention entry whose default is a (nested) list of any rectangular shape", "why_tests_cant": "all default shapes", "anchors": ["sofar/sofa.py:Sofa._convention_to_sofa", "sofar/sofa.py:Sofa.add_missing", "sofar/utils.py:_atleast_nd"]}
{"id": "C19", "title": "verify raises, returns or stays silent consistently", "statement": "For an object that is not modified by the call, verify(issue_handling='raise') raises ValueError with text t exactly if verify(issue_handling='return') returns a text beginning with t, and returns normally exactly if 'return' returns None; 'print' and 'ignore' never raise because of issues.", "quantifier": "every object, every rule set, every mode", "why_tests_cant": "the equivalence of the handling modes must hold for every object", "anchors": ["sofar/sofa.py:Sofa.verify", "sofar/sofa.py:Sofa._verify_handle_issues"]}
{"id": "C20", "title": "verify(issue_handling='return') returns None only if there are no issues", "statement": "If verify detects an error or a warning, verify(issue_handling='return') returns a text that contains it (as documented: None if no issues were detected).", "quantifier": "every object, both modes", "why_tests_cant": "all objects", "anchors": ["sofar/sofa.py:Sofa.verify"]}
{"id": "C21", "title": "verify does not modify user data", "statement": "verify never changes or removes data of the object; with issue_handling='raise' it adds nothing, otherwise it adds only missing mandatory data with default values.", "quantifier": "every object, every mode, also if verify raises", "why_tests_cant": "frame condition over all objects and all exits of a 500 line function", "anchors": ["sofar/sofa.py:Sofa.verify"]}
{"id": "C22", "title": "Verified objects have the data types of the convention", "statement": "If verify succeeds, every attribute is a string, every double variable is an int or float number or array, and every string variable is a string or a numpy string array; numpy arrays of type U and S are both accepted for string variables as documented.", "quantifier": "every object", "why_tests_cant": "all values", "anchors": ["sofar/sofa.py:Sofa.verify", "sofar/sofa.py:Sofa.add_variable"]}
{"id": "C23", "title": "Verified objects have consistent dimensions", "statement": "If verify succeeds, there is one size for every dimension letter (C=3, I=1) such that the shape of every numeric variable, up to singleton dimensions, is the product of sizes prescribed by one of the convention's alternatives for this variable.", "quantifier": "every object, arrays of every rank and shape", "why_tests_cant": "all shapes", "anchors": ["sofar/sofa.py:Sofa.verify", "sofar/utils.py:_atleast_nd", "sofar/utils.py:_nd_newaxis"]}
{"id": "C24", "title": "Verified objects obey the naming rules", "statement": "If verify succeeds, attributes belong to a variable of the convention or are GLOBAL, variables have no underscore apart from the prefix Data_, reserved words are not used and no custom entry has the name of a normative entry.", "quantifier": "every object", "why_tests_cant": "all names", "anchors": ["sofar/sofa.py:Sofa.verify"]}
{"id": "C25", "title": "Verified objects satisfy every rule of the rule set", "statement": "If verify succeeds, then for every rule: restricted values have one of the allowed values (up to case and unit aliases), all general and specific dependencies are present, with allowed values, and prescribed dimension sizes hold; and conversely a violated rule is always reported.", "quantifier": "every rule set, every object", "why_tests_cant": "rule sets are data; tests sample the shipped rules", "anchors": ["sofar/sofa.py:Sofa.verify", "sofar/sofa.py:Sofa._verify_value"]}
{"id": "C26", "title": "Unit strings are compared up to case, alias and separator", "statement": "A unit string is accepted for a reference exactly if it consists of the same number of units, separated by ',' or ', ', and each unit is (up to case) an alias of the unit at the same position in the reference.", "quantifier": "every alias table, every reference, every unit string", "why_tests_cant": "all strings", "anchors": ["sofar/sofa.py:Sofa._verify_value", "sofar/sofa.py:Sofa._verify_unit"]}
{"id": "C27", "title": "Units may be separated by spaces", "statement": "A valid unit string stays valid if ', ' is replaced by a single space as separator (stated in the code comment, the docstrings and HISTORY 0.2.0).", "quantifier": "every alias table, every reference, every unit string", "why_tests_cant": "all strings", "anchors": ["sofar/sofa.py:Sofa._verify_unit", "sofar/sofa.py:Sofa._get_reference_unit", "HISTORY.rst"]}
{"id": "C28", "title": "Writing is stricter than reading", "statement": "An object that passes verify(mode='write') passes verify(mode='read').", "quantifier": "every object, every rule set", "why_tests_cant": "all objects", "anchors": ["sofar/sofa.py:Sofa.verify"]}
{"id": "C29", "title": "Deprecated conventions can be read but not written", "statement": "For an object of a deprecated convention verify(mode='write') never succeeds, while in read mode the deprecation alone never causes an error.", "quantifier": "every deprecation table, every object", "why_tests_cant": "all objects", "anchors": ["sofar/sofa.py:Sofa.verify"]}
{"id": "C30", "title": "verify is idempotent", "statement": "Calling verify a second time (same arguments) gives the same result and leaves the object unchanged, if the first call succeeded.", "quantifier": "every object", "why_tests_cant": "all objects and modes", "anchors": ["sofar/sofa.py:Sofa.verify"]}
{"id": "C31", "title": "get_dimension reports the sizes of the data", "statement": "If get_dimension(d) returns n then n is 3 for C, 1 for I, the maximal string length for S and otherwise the size of axis d of every variable that has this dimension; unknown dimensions raise ValueError.", "quantifier": "every object, every dimension string", "why_tests_cant": "all shapes", "anchors": ["sofar/sofa.py:Sofa.get_dimension", "sofar/sofa.py:Sofa._update_dimensions"]}
{"id": "C32", "title": "Write and read round trip", "statement": "If write_sofa succeeds, read_sofa of the same file name succeeds and equals(sofa, read) is True.", "quantifier": "every verified object, all shapes, all strings, custom data", "why_tests_cant": "the round trip test uses the default objects of the shipped conventions", "anchors": ["sofar/io.py:_write_sofa", "sofar/io.py:_read_netcdf", "sofar/utils.py:equals"]}
{"id": "C33", "title": "Shapes after the round trip", "statement": "After writing and reading, every array is returned with the shape prescribed by its dimensions with trailing singleton dimensions discarded, as documented in read_sofa (Note 2), and a variable with a single element is returned as a scalar (Note 3).", "quantifier": "every variable shape", "why_tests_cant": "all shapes", "anchors": ["sofar/io.py:read_sofa", "sofar/io.py:_format_value_from_netcdf", "sofar/io.py:_format_value_for_netcdf"]}
{"id": "C34", "title": "Objects that fail verification never touch the disk", "statement": "If write_sofa raises because the object violates the standard, the file system is unchanged.", "quantifier": "every object, every file system state", "why_tests_cant": "all objects and disk states", "anchors": ["sofar/io.py:_write_sofa"]}
{"id": "C35", "title": "A failing write does not destroy an existing file", "statement": "If write_sofa raises an exception, a previously existing file of the same name is still there with its old content.", "quantifier": "every object, every file system state, every point at which writing can fail", "why_tests_cant": "all failure points", "anchors": ["sofar/io.py:_write_sofa"]}
{"id": "C36", "title": "A verified object can be written", "statement": "If verify(mode='write') succeeds, write_sofa succeeds.", "quantifier": "every verified object", "why_tests_cant": "all shapes and strings", "anchors": ["sofar/io.py:_write_sofa", "sofar/sofa.py:Sofa.verify"]}
{"id": "C37", "title": "Reading returns exactly the fields of the file", "statement": "The data names of an object returned by read_sofa(verify=False) are exactly the (sofar) names of the global attributes, variables and variable attributes in the file; no default values are mixed in.", "quantifier": "every file with a known convention", "why_tests_cant": "all files", "anchors": ["sofar/io.py:_read_netcdf"]}
{"id": "C38", "title": "Custom data survives the round trip with type and dimensions", "statement": "Custom variables and attributes are registered as custom data with the same type and dimensions after writing and reading.", "quantifier": "every custom entry", "why_tests_cant": "all custom entries", "anchors": ["sofar/io.py:_read_netcdf", "sofar/sofa.py:Sofa._add_custom_api_entry"]}
{"id": "C39", "title": "File names", "statement": "write_sofa and read_sofa use the same path for the same file name, '.sofa' is appended if it is not given, and two different file names without '.sofa' never denote the same file.", "quantifier": "every file name", "why_tests_cant": "all strings", "anchors": ["sofar/io.py:_write_sofa", "sofar/io.py:_read_netcdf"]}
{"id": "C40", "title": "Nothing is lost when writing", "statement": "Every data entry of a verified object that was written successfully is contained in the file.", "quantifier": "every verified object", "why_tests_cant": "all objects", "anchors": ["sofar/io.py:_write_sofa"]}
{"id": "C41", "title": "Data variables are never turned into scalars", "statement": "Reading never changes the number of dimensions of the audio data variables (Data_IR, Data_Real, Data_Imag, Data_SOS, Data_Delay), even if they hold a single element.", "quantifier": "every file", "why_tests_cant": "all shapes", "anchors": ["sofar/io.py:_format_value_from_netcdf"]}
{"id": "C42", "title": "Missing values are reported", "statement": "A numeric variable that contains missing values is returned as masked array with a warning, a variable without missing values is returned as a regular array or scalar with the same values.", "quantifier": "every numeric variable", "why_tests_cant": "all arrays", "anchors": ["sofar/io.py:_format_value_from_netcdf"]}
{"id": "C43", "title": "SofaStream returns what was written", "statement": "Accessing an entry of a written file through SofaStream gives the value held by the object that was written, for global attributes, variables and variable attributes; names that are not in the file raise AttributeError.", "quantifier": "every written object, every name", "why_tests_cant": "all names", "anchors": ["sofar/sofastream.py:SofaStream.__getattr__"]}
{"id": "C44", "title": "SofaStream and Sofa agree on dimensions", "statement": "SofaStream.get_dimension(d) on a written file equals Sofa.get_dimension(d) of the written object, and unknown dimensions raise ValueError.", "quantifier": "every written object", "why_tests_cant": "all sizes", "anchors": ["sofar/sofastream.py:SofaStream.get_dimension", "sofar/sofa.py:Sofa.get_dimension"]}
{"id": "C45", "title": "equals is an equivalence test", "statement": "equals(a, a) is True for every verified object, the result does not depend on the order of entries, and equals(a, b) == equals(b, a).", "quantifier": "every pair of objects", "why_tests_cant": "all objects", "anchors": ["sofar/utils.py:equals"]}
{"id": "C46", "title": "equals detects every difference", "statement": "If equals(a, b) is True then both have the same entries, equal attributes, and numeric and string variables of the same shape up to singleton dimensions with equal (within tolerance) elements.", "quantifier": "every pair of objects", "why_tests_cant": "all objects", "anchors": ["sofar/utils.py:equals"]}
{"id": "C47", "title": "exclude only ignores the documented entries", "statement": "equals(a, b, exclude=x) is True exactly if a and b are equal after removing the entries named by x (GLOBAL: names starting with GLOBAL_, DATE: names containing Date, ATTR: entries of type attribute).", "quantifier": "every pair of objects", "why_tests_cant": "all objects", "anchors": ["sofar/utils.py:equals"]}
{"id": "C48", "title": "Asking for upgrade targets does not modify the data", "statement": "upgrade_convention() without target or with an invalid target does not change the data of the object; it returns the list of targets if the convention is outdated and an empty list if it is up to date.", "quantifier": "every object, every upgrade table", "why_tests_cant": "all objects", "anchors": ["sofar/sofa.py:Sofa.upgrade_convention"]}
{"id": "C49", "title": "Result of an upgrade", "statement": "After a successful upgrade the convention, version and data type are those of the target, all mandatory data of the target convention is present, and entries not mentioned by the upgrade rule are unchanged.", "quantifier": "every object, every upgrade rule", "why_tests_cant": "rules are data", "anchors": ["sofar/sofa.py:Sofa.upgrade_convention"]}
{"id": "C50", "title": "Moving axes during an upgrade loses no data", "statement": "Moving data with a moved axis gives an array that holds at every permuted index the element of the original array.", "quantifier": "every array shape, every pair of axes", "why_tests_cant": "all ranks and sizes", "anchors": ["sofar/sofa.py:Sofa.upgrade_convention"]}
{"id": "C51", "title": "A failing upgrade leaves the object usable", "statement": "If upgrade_convention raises, the object still has its data and its convention.", "quantifier": "every object, every upgrade rule", "why_tests_cant": "all failure points", "anchors": ["sofar/sofa.py:Sofa.upgrade_convention"]}
{"id": "C52", "title": "Declining an update changes no convention", "statement": "If update_conventions is answered with anything but 'y', no convention file is added, changed or removed.", "quantifier": "every local and remote state, every answer", "why_tests_cant": "interactive part is untested", "anchors": ["sofar/update_conventions.py:update_conventions"]}
{"id": "C53", "title": "Updating twice is a no-op", "statement": "Directly after an update from the same server state, update_conventions reports that everything is up to date.", "quantifier": "every server content, every local state", "why_tests_cant": "server content is unbounded", "anchors": ["sofar/update_conventions.py:update_conventions"]}
{"id": "C54", "title": "After an update the local conventions mirror the server", "statement": "After a confirmed update every convention offered by the server (except General_ and GeneralString_) is stored locally with the normalised content of the server, in the folder conventions if standardized and in deprecated otherwise, and a newly deprecated convention is removed from the standardized folder.", "quantifier": "every server content, every local state", "why_tests_cant": "all combinations of local and remote state", "anchors": ["sofar/update_conventions.py:update_conventions"]}
{"id": "C55", "title": "Reordering of a convention table is a stable partition", "statement": "The dictionary built from a csv convention contains each entry once: first all GLOBAL entries, then the others, then the Data entries, each group in file order.", "quantifier": "every csv table", "why_tests_cant": "all tables", "anchors": ["sofar/update_conventions.py:_convention_csv2dict"]}
{"id": "C56", "title": "Congruency check looks at every convention", "statement": "_check_congruency reports every convention that is missing on one of the two platforms and never compares excluded conventions.", "quantifier": "every pair of lists", "why_tests_cant": "all lists", "anchors": ["sofar/update_conventions.py:_check_congruency"]}
{"id": "C57", "title": "Verification never crashes", "statement": "verify reports every problem of an object through its report: with issue_handling='raise' it succeeds or raises a ValueError that carries the report, with 'return' and 'print' it does not raise. No other exception escapes.", "quantifier": "every object, every mode, every set of rules", "why_tests_cant": "any combination of wrong shapes, types, names, units and missing data; exceptions hide in rare combinations", "anchors": ["sofar/sofa.py:Sofa.verify", "sofar/sofa.py:Sofa._verify_value", "sofar/sofa.py:Sofa._verify_unit"]}
{"id": "C58", "title": "Verification accepts every object that follows its convention", "statement": "If an object contains all mandatory data with types, names, shapes, values and units as prescribed by its convention and the verification rules, then verify succeeds and leaves the data as it is.", "quantifier": "every object and every convention and set of rules, read and write mode", "why_tests_cant": "all conforming objects, including custom data and alternatives of dimensions", "anchors": ["sofar/sofa.py:Sofa.verify"]}
{"id": "C59", "title": "Listed dimensions", "statement": "Sofa.list_dimensions prints one line for every dimension that Sofa.get_dimension knows, with its size, its meaning for the data type and types of positions of the object, and the data that sets it.", "quantifier": "every object", "why_tests_cant": "all data types, custom dimensions and combinations of present and missing data", "anchors": ["sofar/sofa.py:Sofa.list_dimensions", "sofar/sofa.py:Sofa.get_dimension"]}
{"id": "C60", "title": "Sofa.inspect shows all data", "statement": "For every object that can be written, Sofa.inspect prints every entry once and in order: the value of attributes and single values, and the named sizes of all other data (with the values of six or less elements), where the sizes are those of get_dimension. A text file gets the same text.", "quantifier": "every object that passes verify, every issue_handling, with and without file", "why_tests_cant": "all types of values (Python and numpy strings, vectors, scalars) of all entries", "anchors": ["sofar/sofa.py:Sofa.inspect"]}
{"id": "C61", "title": "Sofa.info shows the selected entries", "statement": "Sofa.info does not change the object. For 'all', 'mandatory', 'optional', 'read only' and 'data' it shows the entries with these properties and no others, for the name of an entry all information on this entry and nothing else; all other texts raise ValueError.", "quantifier": "every object and every selection", "why_tests_cant": "all names of entries, including names that are part of others", "anchors": ["sofar/sofa.py:Sofa.info"]}
{"id": "C62", "title": "The protection can be stored and restored", "statement": "Sofa.protected can be set to True and False and to the value of Sofa.protected of any Sofa object; all other values raise ValueError and change nothing.", "quantifier": "every object", "why_tests_cant": "depends on the types after conversion in __setattr__, for every history of the object", "anchors": ["sofar/sofa.py:Sofa.protected", "sofar/sofa.py:Sofa.__setattr__"]}
{"id": "C63", "title": "Warnings of equals", "statement": "equals warns if and only if it returns False and verbose is True. For objects with the same names there is one warning for every entry that differs, which contains the name of the entry.", "quantifier": "every pair of objects", "why_tests_cant": "all combinations of differing entries of all types", "anchors": ["sofar/utils.py:equals", "sofar/utils.py:_equals_raise_warning"]}
{"id": "C64", "title": "Listed dimensions of files", "statement": "SofaStream.list_dimensions prints one line for every dimension of the file, with the size that SofaStream.get_dimension gives and its meaning.", "quantifier": "every netCDF file with SOFA data", "why_tests_cant": "files of all data types and with custom dimensions, also from other software", "anchors": ["sofar/sofastream.py:SofaStream.list_dimensions"]}
{"id": "C65", "title": "SofaStream.inspect shows all data", "statement": "SofaStream.inspect prints all global attributes, all variables (value or named sizes) and all attributes of variables of a file.", "quantifier": "every netCDF file with SOFA data", "why_tests_cant": "files from other software with all types of variables and attributes", "anchors": ["sofar/sofastream.py:SofaStream.inspect"]}
{"id": "C66", "title": "Reference units", "statement": "_get_reference_unit gives, for every valid unit string (any case, units separated by ',', ', ' or ' '), the units of the standard separated by ', '.", "quantifier": "every table of unit aliases and every unit string", "why_tests_cant": "all combinations of units, separators and cases", "anchors": ["sofar/sofa.py:Sofa._get_reference_unit", "sofar/sofa.py:Sofa._verify_unit"]}
{"id": "C67", "title": "Listed conventions", "statement": "list_conventions prints one line for every convention file, and exactly the listed conventions and versions can be loaded and verified.", "quantifier": "every set of convention files", "why_tests_cant": "the tests only see the conventions that are shipped at the moment", "anchors": ["sofar/utils.py:list_conventions", "sofar/utils.py:_get_conventions", "sofar/utils.py:_verify_convention_and_version", "sofar/sofa.py:Sofa._load_convention"]}
{"id": "C68", "title": "Verification does not depend on the measured numbers", "statement": "Replacing the numbers in an array by other numbers (same shape and data type) changes neither the outcome, texts and warnings of verify, nor the sizes that get_dimension gives.", "quantifier": "every object, every array in it, every array of the same shape and type, all modes and ways of handling issues", "why_tests_cant": "all possible numbers, including NaN and infinities, in all variables", "anchors": ["sofar/sofa.py:Sofa.verify", "sofar/sofa.py:Sofa.__setattr__", "sofar/sofa.py:Sofa.get_dimension"]}
{"id": "C69", "title": "Adding fitting data keeps objects valid", "statement": "Adding custom data with add_variable or add_attribute that has the stated type and whose shape fits to the stated dimensions (custom dimensions included) to an object that follows its convention gives an object that passes verify.", "quantifier": "every valid object, every number of additions, all names, values and dimensions that fit", "why_tests_cant": "all combinations of existing data and added data", "anchors": ["sofar/sofa.py:Sofa.add_variable", "sofar/sofa.py:Sofa.add_attribute", "sofar/sofa.py:Sofa.verify"]}
{"id": "C70", "title": "The report of verify lists exactly the problems", "statement": "The text raised (or returned) by verify consists of sections; every line names a problem that is present in the object, every problem is named by a line of its section independent of what else is wrong, and nothing is raised if and only if there is no problem. Problems with names, shapes, rules and deprecations are listed if no mandatory data is missing and all data has the right type. Lines show the type, shape or value that was found and what is required; the returned text ends with the warnings about preliminary versions (and deprecations when reading). Every problem is named once.", "quantifier": "every object that can be checked, every combination of problems, every rule set, both modes", "why_tests_cant": "all combinations of problems; tests check single messages", "anchors": ["sofar/sofa.py:Sofa.verify", "sofar/sofa.py:Sofa._verify_value", "sofar/sofa.py:Sofa._verify_handle_issues"]}
{"id": "C71", "title": "Deleting data that can be spared keeps valid objects valid", "statement": "If an object was verified and follows its convention, and the named data is not mandatory, is demanded by no rule of other data of the object, defines no size that no other variable defines, and is not a custom variable whose attributes are still contained, then delete(name) succeeds, removes exactly this data, the object still passes verify and still follows its convention (so the claim can be applied again). If attributes of a deleted custom variable remain, verify rejects the object.", "quantifier": "for all environments (conventions, rules, aliases), all objects that follow their convention, all names, both modes of verify", "why_tests_cant": "Whether a deletion is harmless depends on the rules, the dimensions and the names of all other data of the object and of arbitrary conventions; tests delete a few names from a few objects.", "anchors": ["sofar/sofa.py:160-181", "sofar/sofa.py:612-626", "sofar/sofa.py:896-1425", "sofar/sofa.py:1627-1660"]}
{"id": "C72", "title": "A second round trip changes nothing", "statement": "If an object that can be stored without loss is written and read, and the object that was read is written once more (to any file, with any compression) and read again, then both objects that were read hold identical data: the same names, values with the same type, shape and elements, and the same entries of the convention and of custom data.", "quantifier": "for all environments, all objects that can be stored without loss, all files, all compression levels, all netCDF libraries that follow the model", "why_tests_cant": "Identity after a further round trip concerns all shapes, types, masked or special numbers, texts and custom dimensions; tests compare some objects up to singleton dimensions after one round trip.", "anchors": ["sofar/io.py:112-221", "sofar/io.py:259-339", "sofar/io.py:342-385", "sofar/io.py:388-427"]}
{"id": "C73", "title": "Files that were written can be read with verification, any number of times", "statement": "Every file that write_sofa has written can be read by read_sofa with every setting of verify, and the object that is read passes verify for reading and for writing. Hence writing the object that was read to any other file and reading it again also succeeds, and so on, and no data changes in any of these further steps.", "quantifier": "for all environments, all objects that were written (proved: all that can be stored without loss and whose names the netCDF library accepts), all sequences of files, compression levels and arguments of read_sofa, of any length", "why_tests_cant": "The claim concerns sequences of round trips of any length and all conventions, rules, dimension strings and custom data; tests read back some files once.", "anchors": ["sofar/io.py:13-60", "sofar/io.py:112-221", "sofar/io.py:224-256", "sofar/io.py:259-339", "sofar/sofa.py:896-1425", "sofar/sofa.py:1627-1660"]}
{"id": "C74", "title": "Warnings about preliminary and outdated versions", "statement": "Successfully creating, verifying or reading an object of a preliminary version (0.x) always gives a warning about this version, with every setting of verify. write_sofa warns about an outdated version if and only if the package contains a higher version of the convention. For versions 1.0 and higher, creating an object without verification and verifying standard data for writing give no warnings.", "quantifier": "for all environments, objects, conventions, versions, files and settings of verify (outdated versions: all versions major.minor with a single digit after the dot)", "why_tests_cant": "The claim quantifies over all sets of conventions and versions and all settings; tests check one preliminary and one outdated convention.", "anchors": ["sofar/sofa.py:109-128", "sofar/sofa.py:1393-1413", "sofar/io.py:272-282", "sofar/io.py:139-149"]}
{"id": "C75", "title": "Compiled conventions hold exactly the content of the csv files", "statement": "Every csv file of a convention (tab separated, names of the fields in the first line) can be compiled, and the result has exactly one entry per name in the first column; the fields of the entry are the cells of the last row with this name: text without white space at both ends, numbers (float with a dot, otherwise int), lists and nested lists of numbers in square brackets, None for empty cells, an empty text for empty default values and missing comments. Versions are kept as they are written.", "quantifier": "for all texts of csv files, all names of fields that differ in lower case, all decodings and all conversions of text to numbers", "why_tests_cant": "The claim quantifies over all texts, line breaks and cells; tests compile the files of the package and can not see cells that happen not to occur in them.", "anchors": ["sofar/update_conventions.py:224-355"]}
{"id": "C76", "title": "Messages tell what happened", "statement": "read_sofa prints the names of exactly those data of the file that a new object of the convention does not have, and prints nothing with verbose=False. add_missing prints one line for each name it added, marked mandatory or optional, and says that all mandatory data is contained only if it is. A successful upgrade prints the old and new convention, one line for each moved and removed entry, the added data and the message of the rule; all data that is new after it is named there. If no valid target is given, all targets are listed. add_variable warns once per letter that is not a standard dimension.", "quantifier": "for all files, objects, conventions and upgrade rules, and all arguments", "why_tests_cant": "The claim compares the text with the complete change of the state for all files and upgrade rules; tests compare a few outputs with stored text.", "anchors": ["sofar/io.py:203-207", "sofar/sofa.py:494-537", "sofar/sofa.py:648-685", "sofar/sofa.py:731-894"]}
{"id": "C77", "title": "Objects contain what the csv files describe", "statement": "After the conventions were compiled (directly or by a confirmed update), a new object of a convention contains one datum for each row of the csv file of that convention and version, besides the stamps for API and date. Its value is the one in the column for default values: text, an integer, a float, or an array of the listed numbers in row-major order with singleton axes added according to the column for dimensions. Flags, dimensions and types are those of the row. If all lists are rectangular and have dimensions, and the table has a row with its own version, an object can be created.", "quantifier": "for all folders, csv files, servers, names and versions of conventions, and arguments verify", "why_tests_cant": "The claim spans the complete chain from csv text over json files to objects, for all tables; tests only look at the conventions that are shipped.", "anchors": ["sofar/update_conventions.py:192-355", "sofar/utils.py:64-126", "sofar/sofa.py:1662-1762"]}
{"id": "C78", "title": "Checks use the convention that the object names", "statement": "Verifying, adding missing data, computing dimensions, upgrading and writing use the rows of the convention file whose convention and version are the current values of GLOBAL_SOFAConventions and GLOBAL_SOFAConventionsVersion, followed by the custom entries that are not rows of this file, no matter with which convention the object was created. If there is no such file they all fail (with a ValueError if both attributes exist), and neither the object nor the disk changes.", "quantifier": "for all folders of conventions, objects, arguments and disks", "why_tests_cant": "The claim is about all pairs of objects and folders, including objects whose convention or version was changed after they were created and objects with custom data.", "anchors": ["sofar/sofa.py:1627-1660", "sofar/sofa.py:1662-1721", "sofar/utils.py:22-54"]}
{"id": "C79", "title": "Dimensions are known whenever types and shapes are in order", "statement": "Sofa.get_dimension raises the error about unknown dimensions if and only if the object contains data of wrong type or wrong shape; whatever else is wrong with the object (names, values, units, missing dependencies, deprecations), it gives the sizes of all dimensions.", "quantifier": "for all objects that can be checked, all rules and all dimensions", "why_tests_cant": "The decision is made by looking for phrases in a report that quotes arbitrary data of the object, so that all combinations of problems and texts matter.", "anchors": ["sofar/sofa.py:265-306", "sofar/sofa.py:896-1425"]}
{"id": "C80", "title": "Read only means read only in the current convention", "statement": "A protected object, whether it was created, read from a file or upgraded and whatever was called before, refuses assignments (TypeError, nothing changes) to exactly the data that its convention flags as read only; all other data can be assigned.", "quantifier": "for all environments, all ways to get an object, all sequences of public calls including upgrades, all names and values", "why_tests_cant": "The list of read only names is stored once when the object is created and used by every later assignment; whether it is still right depends on the whole history of the object.", "anchors": ["sofar/sofa.py:85-103", "sofar/sofa.py:133-158", "sofar/sofa.py:731-894", "sofar/io.py:112-221"]}
{"id": "C81", "title": "Conventions do not influence each other", "statement": "Adding, changing or removing the files of other conventions changes nothing for a convention: creating, verifying, completing, inspecting, writing, reading and upgrading objects of the convention has the same results, objects, files and messages.", "quantifier": "for all pairs of installations that differ in the files of other conventions, all objects, files and sequences of public calls", "why_tests_cant": "A claim about pairs of installations (noninterference). The files are selected by name prefixes from a shared folder, and every verification looks at all files.", "anchors": ["sofar/utils.py:22-54", "sofar/utils.py:64-126", "sofar/sofa.py:1627-1660", "sofar/sofa.py:1662-1721", "sofar/io.py:112-221", "sofar/io.py:259-339"]}
{"id": "C82", "title": "Streams give data exactly inside of with statements", "statement": "A stream gives the content of the file as it was when the with statement was entered, as long as the with statement is active. Outside of with statements no data can be accessed and a clear exception is raised. A stream can be used in any number of with statements.", "quantifier": "for all sequences of entering and leaving with statements, all files on the disk at these times, all names and all recursion limits", "why_tests_cant": "Life cycle property over unbounded histories: nested and repeated statements, files that change or can not be opened in between; the exception before the first statement comes from a method that looks up an attribute it was called for.", "anchors": ["sofar/sofastream.py:67-84", "sofar/sofastream.py:86-119", "sofar/sofastream.py:121-193", "sofar/sofastream.py:195-223", "sofar/sofastream.py:225-301"]}
{"id": "C83", "title": "All ways of reading a file agree", "statement": "For every file that read_sofa can read, whoever wrote it: read_sofa_as_netcdf can read it too and gives the same names and values and no other warnings; the settings of read_sofa do not change the data; and a stream delivers every datum of the object with the same value.", "quantifier": "for all files on the disk, all installed conventions, all settings of read_sofa and all names", "why_tests_cant": "Relates four implementations of reading (with and without convention, with and without verification, lazily by name) for arbitrary files, while tests only read files that sofar wrote itself.", "anchors": ["sofar/io.py:13-60", "sofar/io.py:63-109", "sofar/io.py:112-221", "sofar/io.py:388-427", "sofar/sofastream.py:86-119"]}
{"id": "C84", "title": "Objects and files of a program do not interfere", "statement": "In a program that keeps several SOFA objects in variables, reads, creates, copies, changes, upgrades and writes them: an object is changed by nothing but statements about its own variable and does not depend on the rest of the program; writing and verifying an object never change its data; a file is changed by nothing but writing to it; and reading a file at the end gives the object that was successfully written to it last, in the state it had at that time.", "quantifier": "for all programs (sequences of statements of any length), all initial objects and disks, all variables and files", "why_tests_cant": "Quantifies over all interleavings of calls on several objects and files; tests execute a few fixed sequences.", "anchors": ["sofar/io.py:13-60", "sofar/io.py:224-256", "sofar/io.py:259-339", "sofar/sofa.py:92-131", "sofar/sofa.py:731-894", "sofar/sofa.py:1623-1625"]}
{"id": "C85", "title": "Adding many data at once", "statement": "If a sequence of calls of add_variable and add_attribute succeeds, all names were new and different and the object holds exactly the former data and the added values. In particular the object returned by _complete_sofa consists of a new object and the listed data and passes every further verification; ValueError names the first listed datum that the convention already has, and otherwise only the verification can fail.", "quantifier": "for all objects, all sequences of calls of any length, all conventions", "why_tests_cant": "Tests add a handful of data to one convention; the claim quantifies over sequences of calls and arbitrary conventions.", "anchors": ["sofar/utils.py:272-316", "sofar/sofa.py:539-610", "sofar/sofa.py:648-685"]}
{"id": "C86", "title": "Text with the versions", "statement": "version() names the version of sofar and the first line of the file VERSION without white space at its ends, whatever follows and whatever kind of line break is used.", "quantifier": "for all contents of the file", "why_tests_cant": "Tests only see the installed file.", "anchors": ["sofar/utils.py:10-19"]}
{"id": "C87", "title": "Ownership of assigned data", "statement": "After an assignment sofa.name = value, the object owns the value: whatever the rest of the program does to the value or to other objects does not change the object, and read only data of protected objects never change. In memory, an assignment has the same outcome and effect as in the model with values, and leaves all other objects as they are.", "quantifier": "for all memories, objects, values, and all sequences of operations of the rest of the program", "why_tests_cant": "Aliasing needs arbitrary sequences of operations on shared memory after the assignment; tests assign fresh values.", "anchors": ["sofar/sofa.py:133-158"]}
{"id": "C88", "title": "Results depend on the data only", "statement": "The result of a method depends on the data of the object (its public attributes and custom entries), not on what was called before: objects with the same data are verified, written, upgraded, completed, listed and inspected with the same outcome, the same messages and the same data afterwards, whatever they remember in private attributes (convention, sizes, list of entries, read only names, protection).", "quantifier": "for all environments, and all pairs of objects with the same data and arbitrary private state", "why_tests_cant": "Needs all pairs of histories leading to the same data; tests use one freshly created object per call.", "anchors": ["sofar/sofa.py:896-1425", "sofar/sofa.py:1627-1660", "sofar/sofa.py:265-306", "sofar/sofa.py:188-263", "sofar/sofa.py:409-492", "sofar/sofa.py:494-537", "sofar/sofa.py:308-407", "sofar/sofa.py:731-894", "sofar/io.py:259-339"]}
{"id": "C89", "title": "The order of the data does not matter", "statement": "Whether an object passes the verification, and the sizes of its dimensions, do not depend on the order of its data and of its custom entries; in particular the order of two calls of add_variable does not matter.", "quantifier": "for all environments, objects, permutations of the data and of the custom entries, and both modes", "why_tests_cant": "Needs all permutations of arbitrary data; tests use the order in which conventions list their entries.", "anchors": ["sofar/sofa.py:896-1425", "sofar/sofa.py:1177-1213", "sofar/sofa.py:265-306", "sofar/sofa.py:648-729"]}
{"id": "C90", "title": "Free texts and the time do not matter", "statement": "Replacing a text that no rule looks at changes neither the verification nor the sizes of dimensions. Objects created at different times differ in their two dates only; verification, reading and writing do not depend on the time at all (although all three create a new object with the current date), so that writing does not update GLOBAL_DateModified.", "quantifier": "for all environments, objects, texts, times, files and arguments, provided that the attribute (for the time: GLOBAL_DateCreated and GLOBAL_DateModified) is an attribute in all tables, no unit and not subject to a rule", "why_tests_cant": "Needs all texts and all times; tests run at one time and check dates loosely.", "anchors": ["sofar/sofa.py:896-1425", "sofar/sofa.py:1723-1762", "sofar/sofa.py:92-131", "sofar/io.py:112-221", "sofar/io.py:259-339"]}
{"id": "C91", "title": "Nested lists are stored index by index", "statement": "Assigning a nested list of numbers, or of texts, stores an array whose shape is given by the numbers of elements on the levels of the list (with a leading 1 for lists with one level) and that has l[i][j]... at index (i, j, ...); a list with a single element is stored as scalar. The data type is float if there is a float, otherwise integer, otherwise bool. A list that is not rectangular is rejected with a ValueError and the object is unchanged.", "quantifier": "for all objects, names and nested lists of any depth", "why_tests_cant": "Needs lists of all depths and shapes; tests assign short lists with one or two levels.", "anchors": ["sofar/sofa.py:133-158"]}
{"id": "C92", "title": "The text of a convention gives back the convention", "statement": "What json.load reads from the json file of a convention is the dictionary that was made from the csv file: the same entries and fields in the same order, the same texts whatever characters they contain, the same numbers, integers as integers and floats as floats. Different dictionaries have different texts. The text contains only printable ASCII characters and line feeds, so that reading and writing it does not depend on the encoding that Python uses for text files by default.", "quantifier": "for all csv files that are accepted, and for all values with texts, numbers, lists and dictionaries of any depth", "why_tests_cant": "Needs all texts (quotes, backslashes, control characters, characters beyond 16 bit) and all depths; tests compare a handful of compiled files, and run with one default encoding.", "anchors": ["sofar/update_conventions.py:192-221", "sofar/sofa.py:1662-1721"]}
{"id": "C93", "title": "The size of a dimension does not matter", "statement": "If an object was verified and follows its convention, and all its variables get another size along one dimension (another number of measurements, receivers, samples, ...; not I, C and S) while everything else is as before, then the object still passes the verification, get_dimension gives the new size, and the sizes of all other dimensions are as before, unless a rule prescribes the size of that dimension.", "quantifier": "for all objects that follow their convention, all dimensions except I, C and S, and all sizes", "why_tests_cant": "Needs all sizes; tests use small arrays of a few fixed sizes.", "anchors": ["sofar/sofa.py:896-1425", "sofar/sofa.py:265-291"]}
{"id": "C94", "title": "The spelling of values does not matter", "statement": "An object passes the verification with one spelling of a value exactly if it passes with another: unit names may be replaced by other names of the same units, in capital or small letters, with or without spaces after the commas (small letters for writing); other restricted texts except data type and name of the convention may be in capital or small letters.", "quantifier": "for all objects, conventions, rules and tables of unit names, and all spellings", "why_tests_cant": "Needs all combinations of capital letters and unit names together with all rules that depend on a value; tests try single spellings of single values.", "anchors": ["sofar/sofa.py:1279-1388", "sofar/sofa.py:1427-1518"]}
{"id": "C95", "title": "Every rule acts on its own", "statement": "An object passes the verification exactly if it passes without rules and with each single rule; so fewer rules, in any order, keep valid objects valid, and the same holds for creating objects. A rule about data that neither the object nor any convention knows changes no result, text or warning.", "quantifier": "for all objects, conventions, tables and sets of rules, both modes; unknown data: all settings of issue_handling", "why_tests_cant": "Needs all subsets of about hundred rules for all objects; tests use the complete set of rules only.", "anchors": ["sofar/sofa.py:1279-1388", "sofar/sofa.py:1152-1171", "sofar/sofa.py:92-131"]}
{"id": "C96", "title": "Optional additions to conventions keep objects valid", "statement": "If optional rows with new names are added to conventions (anywhere in the files), every valid object that uses none of the new names stays valid and the verification detects the same dimensions; if the object has custom data, new objects of the extended conventions must be creatable. New objects without optional data contain the same data. Files without the new names that could be read stay readable, and give the same data and custom data. For mandatory rows, or rows that take the name of custom data, this does not hold.", "quantifier": "for all conventions, all additional rows, all objects that do not use the new names, both modes", "why_tests_cant": "Conventions are updated from the internet; tests only know the conventions of one day.", "anchors": ["sofar/sofa.py:896-1425", "sofar/sofa.py:1627-1660", "sofar/sofa.py:1662-1721", "sofar/sofa.py:1723-1762"]}
{"id": "C97", "title": "The order of the data in a file does not matter", "statement": "Two files with the same global attributes and the same variables with the same attributes, in any order, are read as objects with the same data and the same custom data; with verification either both or none of them are read. The claim is false for files with two variables whose names differ only in `.` and `_` (the variable that comes last wins without a message) and for dimensions with a comma and a space in their name (the order decides if the file is valid).", "quantifier": "for all conventions, all files, all orders of attributes and variables, all values of the arguments verify and verbose", "why_tests_cant": "netCDF libraries are free to order variables; tests read files that were written by sofar in the order of the convention.", "anchors": ["sofar/io.py:112-221", "sofar/io.py:388-427", "sofar/sofa.py:687-729", "sofar/sofa.py:896-1425"]}
{"id": "C98", "title": "The order of the data does not matter for the files written", "statement": "If an object can be written, then an object with the same data and custom data in another order can be written as well; both calls replace the same file, and the two files have the same dimensions, sizes, global attributes, variables and attributes of variables. Reading the two files gives objects with the same data. The claim is false if two variables define different sizes of the same dimension: then the order decides whether the object is written.", "quantifier": "for all conventions, all objects, all orders of data and custom data, all file names, disks and compression levels", "why_tests_cant": "Tests write objects with the data in the order of the convention.", "anchors": ["sofar/io.py:224-256", "sofar/io.py:259-339", "sofar/io.py:342-385", "sofar/sofa.py:896-1425"]}
{"id": "C99", "title": "Laws of assignments", "statement": "After any sequence of accepted assignments every name holds the value that was assigned last, all other data are as before and nothing else of the object changes. Assignments to different names are accepted in every order or in none and give the same object. Assigning the old value after an assignment gives back the object, and assigning the stored value changes nothing.", "quantifier": "for all objects (protected or not), all names except protected, all values, all sequences of assignments and all orders", "why_tests_cant": "Tests do single assignments; the laws are about all sequences of assignments and all orders.", "anchors": ["sofar/sofa.py:133-158"]}
{"id": "C100", "title": "The order of the rows of a convention does not matter", "statement": "If the rows of the convention files are in another order, then new objects have the same data, what passed the verification passes it, what could be written is written with the same content, and what could be read is read with the same data. The claim is false if two rows define different sizes of the same dimension or have the same name in sofar: then the order decides.", "quantifier": "for all sets of convention files and all orders of their rows, all objects, all orders of data, all files and disks", "why_tests_cant": "Tests use the convention files with the rows in the order in which they were compiled.", "anchors": ["sofar/sofa.py:92-131", "sofar/sofa.py:896-1425", "sofar/sofa.py:1627-1660", "sofar/sofa.py:1662-1721", "sofar/sofa.py:1723-1762", "sofar/io.py:112-221", "sofar/io.py:224-339"]}
{"id": "C101", "title": "The order in which convention files are found does not matter", "statement": "If the convention files are found in another order, then new objects, all methods, reading, writing and whole programs give the same objects, results, files and messages, and the list of the conventions has the same lines. The claim is false if two versions of a convention are the same number, for example 1.1 and 1.10: then the first one is the latest one.", "quantifier": "for all folders and all orders of their files, all objects, arguments, files and programs", "why_tests_cant": "The order of glob depends on the file system; tests run with the order of one file system.", "anchors": ["sofar/utils.py:22-54", "sofar/utils.py:57-61", "sofar/utils.py:64-126", "sofar/utils.py:272-316", "sofar/sofa.py:92-131", "sofar/sofa.py:1627-1660", "sofar/sofa.py:1662-1721", "sofar/sofa.py:896-1425", "sofar/io.py:13-60", "sofar/io.py:112-221", "sofar/io.py:224-339"]}
{"id": "C102", "title": "The order of the tables for the verification does not matter", "statement": "If the aliases of units, the deprecated conventions and the upgrades are listed in another order, all methods, reading, writing and whole programs give the same results, objects, files and texts. If the rules are listed in another order, the same objects are valid, can be created, read and written, and are the same afterwards; only the order of the problems in error messages follows the order of the rules.", "quantifier": "for all tables and all orders of their entries, all conventions, objects, arguments, files and programs", "why_tests_cant": "Tests use the tables of the installed conventions in the order of the json files.", "anchors": ["sofar/sofa.py:1279-1388", "sofar/sofa.py:1390-1413", "sofar/sofa.py:1427-1474", "sofar/sofa.py:1476-1518", "sofar/sofa.py:731-894", "sofar/io.py:112-221", "sofar/io.py:259-339"]}
{"id": "C103", "title": "The order of the data does not matter for adding missing data and for upgrades", "statement": "If missing data can be added to an object, or if it can be upgraded to another convention, then the same is possible with the same result for an object with the same data and custom entries in another order, and both objects have the same data afterwards.", "quantifier": "for all environments, objects, permutations of the data and of the custom entries, targets, rules for upgrades and arguments", "why_tests_cant": "Needs all permutations of arbitrary data; tests use the order in which conventions list their entries.", "anchors": ["sofar/sofa.py:494-537", "sofar/sofa.py:731-894", "sofar/sofa.py:1627-1660"]}
{"id": "C104", "title": "The order of the data in a file does not matter for streams", "statement": "If two files contain the same dimensions, global attributes, variables and attributes of variables in any order, streams of both files give the same data or the same error for every name, the same sizes of all dimensions, and the same list of dimensions if the dimensions are in the same order. inspect prints the same title and the same entries, in another order, the global attributes before the variables. In particular, the streams agree for the files written of two objects with the same data in another order (if the variables agree on the sizes of the dimensions).", "quantifier": "for all pairs of files with the same content, all names and dimensions, and all objects", "why_tests_cant": "Tests read files that were written in one order.", "anchors": ["sofar/sofastream.py:86-119", "sofar/sofastream.py:121-193", "sofar/sofastream.py:195-223", "sofar/io.py:259-339", "sofar/sofastream.py:225-301"]}
{"id": "C105", "title": "Several names of the same object", "statement": "After x = y both names show the same object until one of them is bound again: what is done to it under one name (method calls, upgrades, writing) is seen under the other, and it does not matter which name is used. A statement that binds a name changes the object of no other name, and a name bound to a new object has nothing to do with the object it had before. An object stays as it is while none of its names is used. x = y.copy() gives an object without other names, which keeps the data y had, whatever is done to y and to all other names. Programs without x = y behave as if every name had an object of its own.", "quantifier": "for all states of names and objects, all names and all programs of creating, reading, copying, changing, upgrading and writing objects and binding names", "why_tests_cant": "Tests use few names and short programs; sharing shows only in the interplay of several names.", "anchors": ["sofar/sofa.py:92-131", "sofar/sofa.py:133-158", "sofar/sofa.py:731-894", "sofar/sofa.py:1623-1625", "sofar/io.py:13-256"]}
