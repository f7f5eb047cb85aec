{"id": "C01", "title": "Get returns exactly the addressed value", "statement": "If a path resolves in a well-formed JSON text, Get returns without error or panic exactly the bytes of that value as they stand in the text, without the surrounding quotes when it is a string; among duplicate keys the first one counts.", "quantifier": "every well-formed JSON text (any nesting depth, any whitespace, any escapes, duplicate keys allowed) and every non-empty path that resolves in it", "why_tests_cant": "The space of documents and paths is infinite and the scanner keeps hand-written state (quote flag, level counters, escape look-back) whose interaction only fails on particular combinations of nesting, escapes and whitespace; tests sample a few.", "anchors": ["inter_get.go:Get", "inter_core.go:core"]}
{"id": "C02", "title": "Get does not depend on formatting", "statement": "Two texts of the same document that differ only in whitespace between tokens give the same Get result for every path that leads to a string, number, boolean or null.", "quantifier": "all pairs of well-formed texts that differ only in insignificant whitespace, all paths to a scalar", "why_tests_cant": "The space of documents and paths is infinite and the scanner keeps hand-written state (quote flag, level counters, escape look-back) whose interaction only fails on particular combinations of nesting, escapes and whitespace; tests sample a few.", "anchors": ["inter_get.go:Get", "inter_core.go:core"]}
{"id": "C03", "title": "A missing key is reported as an error", "statement": "If the parent of the last key exists and is an object without that key, Get returns a KeyNotFound error.", "quantifier": "every well-formed JSON text (any nesting depth, any whitespace, any escapes, duplicate keys allowed), every path to an existing object, every key absent from it", "why_tests_cant": "A false hit needs a later sibling of a particular shape; hand-picked negative tests (usually on a flat object) do not produce it.", "anchors": ["inter_core.go:core", "inter_get.go:Get", "errors.go:errKeyNotFound"]}
{"id": "C04", "title": "Array index errors are exact", "statement": "For a path that ends in an index into an existing array: an index that is not an integer gives IndexExpected, an integer outside 0..length-1 gives IndexOutOfRange (EmptyArray for index 0 of an empty array), and no element is ever returned for it.", "quantifier": "every well-formed JSON text (any nesting depth, any whitespace, any escapes, duplicate keys allowed), every path to an existing array and every last path entry that is not a valid index of it", "why_tests_cant": "The space of documents and paths is infinite and the scanner keeps hand-written state (quote flag, level counters, escape look-back) whose interaction only fails on particular combinations of nesting, escapes and whitespace; tests sample a few.", "anchors": ["inter_core.go:core", "errors.go:errIndexOutOfRange", "errors.go:errIndexExpected", "errors.go:errEmptyArray"]}
{"id": "C05", "title": "Typed getters are Get followed by the conversion", "statement": "GetString returns what Get returns; GetInt, GetFloat and GetBool return the integer, float or boolean the text stands for, an IntegerParse/FloatParse/BoolParse error carrying that text when it is not one, and the error of Get when the path fails.", "quantifier": "every well-formed JSON text (any nesting depth, any whitespace, any escapes, duplicate keys allowed), every resolving path, and every error of Get", "why_tests_cant": "Needs all value texts, including quoted numbers, signs and leading zeros.", "anchors": ["inter_get.go:GetString", "inter_get.go:GetInt", "inter_get.go:GetFloat", "inter_get.go:GetBool"]}
{"id": "C06", "title": "Get never panics on a text that ends with a closing bracket", "statement": "For arbitrary bytes - well-formed or not - whose last byte is ] or }, Get with any non-empty path returns a value or an error and never panics.", "quantifier": "all byte sequences ending in ] or }, all non-empty paths", "why_tests_cant": "Absence of index-out-of-range panics is a statement about all inputs; fuzzing can only fail to find one.", "anchors": ["inter_get.go:Get", "inter_core.go:core"]}
{"id": "C07", "title": "Set replaces exactly the addressed value", "statement": "If the path resolves, Set returns the text in which exactly the bytes of that value (including quotes of a string) are replaced by the new value and every other byte is unchanged.", "quantifier": "every well-formed JSON text (any nesting depth, any whitespace, any escapes, duplicate keys allowed), every resolving non-empty path, every byte sequence as new value", "why_tests_cant": "The space of documents and paths is infinite and the scanner keeps hand-written state (quote flag, level counters, escape look-back) whose interaction only fails on particular combinations of nesting, escapes and whitespace; tests sample a few.", "anchors": ["inter_set.go:Set", "utils.go:replace"]}
{"id": "C08", "title": "Get after Set returns what was set", "statement": "After Set of a well-formed JSON value at a resolving path the text is again well-formed, the same path resolves, and Get returns the new value (unquoted if it is a string).", "quantifier": "every well-formed JSON text (any nesting depth, any whitespace, any escapes, duplicate keys allowed), every resolving path, every well-formed new value", "why_tests_cant": "The space of documents and paths is infinite and the scanner keeps hand-written state (quote flag, level counters, escape look-back) whose interaction only fails on particular combinations of nesting, escapes and whitespace; tests sample a few.", "anchors": ["inter_set.go:Set", "inter_get.go:Get"]}
{"id": "C09", "title": "Set leaves every other path alone", "statement": "After Set at path p, Get at any path q that resolved before and branches off from p (different object key or different array index at some common prefix) returns the same bytes as before.", "quantifier": "every well-formed JSON text (any nesting depth, any whitespace, any escapes, duplicate keys allowed), all pairs of diverging resolving paths, every well-formed new value", "why_tests_cant": "Frame conditions quantify over all the paths not touched.", "anchors": ["inter_set.go:Set", "inter_get.go:Get"]}
{"id": "C10", "title": "SetInt / GetInt round trip", "statement": "GetInt after SetInt of n at a resolving path returns n, for every 64-bit n.", "quantifier": "every well-formed JSON text (any nesting depth, any whitespace, any escapes, duplicate keys allowed), every resolving path, every 64-bit signed integer", "why_tests_cant": "2^64 integers times all documents.", "anchors": ["inter_set.go:SetInt", "inter_get.go:GetInt"]}
{"id": "C11", "title": "SetBool / GetBool round trip", "statement": "GetBool after SetBool of b at a resolving path returns b.", "quantifier": "every well-formed JSON text (any nesting depth, any whitespace, any escapes, duplicate keys allowed), every resolving path, both booleans", "why_tests_cant": "The space of documents and paths is infinite and the scanner keeps hand-written state (quote flag, level counters, escape look-back) whose interaction only fails on particular combinations of nesting, escapes and whitespace; tests sample a few.", "anchors": ["inter_set.go:SetBool", "inter_get.go:GetBool"]}
{"id": "C12", "title": "SetFloat / GetFloat round trip", "statement": "If the float formatter prints x as a plain number text that the float parser reads back as x, then GetFloat after SetFloat of x at a resolving path returns x.", "quantifier": "every well-formed JSON text (any nesting depth, any whitespace, any escapes, duplicate keys allowed), every resolving path, every float whose printed form reads back", "why_tests_cant": "The space of documents and paths is infinite and the scanner keeps hand-written state (quote flag, level counters, escape look-back) whose interaction only fails on particular combinations of nesting, escapes and whitespace; tests sample a few.", "anchors": ["inter_set.go:SetFloat", "inter_get.go:GetFloat"]}
{"id": "C13", "title": "SetString / GetString round trip", "statement": "For every string s that is valid JSON string content and that does not look like a number, boolean, null, or an already quoted or bracketed text, GetString after SetString(s) returns s; strings that look like numbers or booleans come back unchanged too.", "quantifier": "every well-formed JSON text (any nesting depth, any whitespace, any escapes, duplicate keys allowed), every resolving path, every string s without unescaped quotes", "why_tests_cant": "The value classification (formatType) has many branches depending on first/last byte and number syntax.", "anchors": ["inter_set.go:SetString", "inter_get.go:GetString", "utils.go:formatType"]}
{"id": "C14", "title": "Set is last-writer-wins and idempotent", "statement": "Set(v1) followed by Set(v2) at the same path gives the same bytes as Set(v2) alone; setting a value to its own current text returns the original bytes.", "quantifier": "every well-formed JSON text (any nesting depth, any whitespace, any escapes, duplicate keys allowed), every resolving path, all well-formed v1, v2", "why_tests_cant": "The space of documents and paths is infinite and the scanner keeps hand-written state (quote flag, level counters, escape look-back) whose interaction only fails on particular combinations of nesting, escapes and whitespace; tests sample a few.", "anchors": ["inter_set.go:Set"]}
{"id": "C15", "title": "Sets at diverging paths commute", "statement": "Setting two values at two diverging resolving paths gives the same bytes in either order.", "quantifier": "every well-formed JSON text (any nesting depth, any whitespace, any escapes, duplicate keys allowed), all pairs of diverging resolving paths, all pairs of well-formed values", "why_tests_cant": "The space of documents and paths is infinite and the scanner keeps hand-written state (quote flag, level counters, escape look-back) whose interaction only fails on particular combinations of nesting, escapes and whitespace; tests sample a few.", "anchors": ["inter_set.go:Set"]}
{"id": "C16", "title": "Delete removes exactly the addressed entry", "statement": "If the path resolves, Delete returns a well-formed text whose document is the original one without that member or array element: all other members/elements keep their text and order, and no comma is left dangling.", "quantifier": "every well-formed JSON text (any nesting depth, any whitespace, any escapes, duplicate keys allowed), every resolving non-empty path", "why_tests_cant": "Separators, whitespace and quotes around the entry combine in many ways (first, middle, last, only entry).", "anchors": ["inter_delete.go:Delete"]}
{"id": "C17", "title": "Deleting an array element shifts the later ones", "statement": "After deleting element i of an array, Get at index j returns what was at j for j < i and what was at j+1 for j >= i, with any further path appended.", "quantifier": "every well-formed JSON text (any nesting depth, any whitespace, any escapes, duplicate keys allowed), every resolving path ending in an array index, all other indices and continuations", "why_tests_cant": "The space of documents and paths is infinite and the scanner keeps hand-written state (quote flag, level counters, escape look-back) whose interaction only fails on particular combinations of nesting, escapes and whitespace; tests sample a few.", "anchors": ["inter_delete.go:Delete", "inter_get.go:Get"]}
{"id": "C18", "title": "Deleting a member keeps the others", "statement": "After deleting a member of an object, Get of any other resolving path that diverges from it returns the same bytes as before.", "quantifier": "every well-formed JSON text (any nesting depth, any whitespace, any escapes, duplicate keys allowed), every resolving path ending in a key, all diverging resolving paths", "why_tests_cant": "The space of documents and paths is infinite and the scanner keeps hand-written state (quote flag, level counters, escape look-back) whose interaction only fails on particular combinations of nesting, escapes and whitespace; tests sample a few.", "anchors": ["inter_delete.go:Delete", "inter_get.go:Get"]}
{"id": "C19", "title": "A deleted key is gone", "statement": "After deleting a member whose key occurs once in its object, Get of that path returns an error.", "quantifier": "every well-formed JSON text (any nesting depth, any whitespace, any escapes, duplicate keys allowed), every resolving path ending in a key that occurs once", "why_tests_cant": "Depends on key-absence detection over all documents.", "anchors": ["inter_delete.go:Delete", "inter_get.go:Get"]}
{"id": "C20", "title": "Add appends one element", "statement": "If the path (possibly empty) leads to an array of n elements, Add of a well-formed value returns a well-formed text in which that array has n+1 elements, the first n are untouched byte for byte and Get at index n returns the added value.", "quantifier": "every well-formed JSON text (any nesting depth, any whitespace, any escapes, duplicate keys allowed), every path to an array, every well-formed value", "why_tests_cant": "The space of documents and paths is infinite and the scanner keeps hand-written state (quote flag, level counters, escape look-back) whose interaction only fails on particular combinations of nesting, escapes and whitespace; tests sample a few.", "anchors": ["inter_add.go:Add"]}
{"id": "C21", "title": "AddKeyValue appends one member", "statement": "If the path (possibly empty) leads to an object that does not contain the key, AddKeyValue returns a well-formed text in which that object has one more member at the end, everything else is untouched, and Get of path+key returns the added value.", "quantifier": "every well-formed JSON text (any nesting depth, any whitespace, any escapes, duplicate keys allowed), every path to an object, every absent key, every well-formed value", "why_tests_cant": "The space of documents and paths is infinite and the scanner keeps hand-written state (quote flag, level counters, escape look-back) whose interaction only fails on particular combinations of nesting, escapes and whitespace; tests sample a few.", "anchors": ["inter_add.go:AddKeyValue"]}
{"id": "C22", "title": "AddKeyValue refuses an existing key", "statement": "If the object already has the key, AddKeyValue returns a KeyAlreadyExist error and the unchanged bytes.", "quantifier": "every well-formed JSON text (any nesting depth, any whitespace, any escapes, duplicate keys allowed), every path to an object, every key in it, every value", "why_tests_cant": "The space of documents and paths is infinite and the scanner keeps hand-written state (quote flag, level counters, escape look-back) whose interaction only fails on particular combinations of nesting, escapes and whitespace; tests sample a few.", "anchors": ["inter_add.go:AddKeyValue", "errors.go:errKeyAlreadyExist"]}
{"id": "C23", "title": "Insert puts the value before the indexed element", "statement": "If the path leads to an array with an element i, Insert(i, v) returns a well-formed text in which v is element i, the elements before keep their index and the elements from i on move up by one.", "quantifier": "every well-formed JSON text (any nesting depth, any whitespace, any escapes, duplicate keys allowed), every path to an array, every valid index, every well-formed value", "why_tests_cant": "The separator logic depends on the whitespace around the comma before the element.", "anchors": ["inter_add.go:Insert"]}
{"id": "C24", "title": "SetKey renames exactly one member", "statement": "If the path leads to a member and its object does not contain the new key, SetKey returns the text in which exactly the bytes of that key are replaced; Get through the new key returns the old value.", "quantifier": "every well-formed JSON text (any nesting depth, any whitespace, any escapes, duplicate keys allowed), every resolving path ending in a key, every non-empty new key absent from the object", "why_tests_cant": "The space of documents and paths is infinite and the scanner keeps hand-written state (quote flag, level counters, escape look-back) whose interaction only fails on particular combinations of nesting, escapes and whitespace; tests sample a few.", "anchors": ["inter_set.go:SetKey"]}
{"id": "C25", "title": "SetKey refuses an existing key", "statement": "If the object already contains the new key (or the new key is empty), SetKey returns an error and the unchanged bytes.", "quantifier": "every well-formed JSON text (any nesting depth, any whitespace, any escapes, duplicate keys allowed), every path into an object, every key of that object", "why_tests_cant": "The space of documents and paths is infinite and the scanner keeps hand-written state (quote flag, level counters, escape look-back) whose interaction only fails on particular combinations of nesting, escapes and whitespace; tests sample a few.", "anchors": ["inter_set.go:SetKey"]}
{"id": "C26", "title": "Store is an upsert", "statement": "Store(key, v) on an object equals Set at path+key when the key exists and AddKeyValue when it does not.", "quantifier": "every well-formed JSON text (any nesting depth, any whitespace, any escapes, duplicate keys allowed), every path to an object, every key, every value", "why_tests_cant": "The space of documents and paths is infinite and the scanner keeps hand-written state (quote flag, level counters, escape look-back) whose interaction only fails on particular combinations of nesting, escapes and whitespace; tests sample a few.", "anchors": ["inter_set.go:Store"]}
{"id": "C27", "title": "A failed mutation returns the bytes it was given", "statement": "Whenever Set, SetString, SetInt, SetFloat, SetBool, SetKey, Store*, Add*, AddKeyValue*, Insert* or Delete returns an error, the returned bytes are the input bytes.", "quantifier": "all byte sequences (well-formed or not), all paths, keys and values", "why_tests_cant": "Every error path of every mutator on every input.", "anchors": ["inter_set.go", "inter_add.go", "inter_delete.go"]}
{"id": "C28", "title": "Set, Delete and SetKey need a path", "statement": "With an empty path Set, Delete and SetKey return the NullPath error (SetKey with an empty new key: NullKey) and change nothing.", "quantifier": "all byte sequences and values", "why_tests_cant": "All inputs.", "anchors": ["inter_set.go:Set", "inter_delete.go:Delete", "inter_set.go:SetKey"]}
{"id": "C29", "title": "Delete undoes Add and AddKeyValue", "statement": "Adding an element (or a fresh member) and deleting it again restores the original bytes when the container was not empty and has no whitespace before its closing bracket, and the original document (bytes up to whitespace) always.", "quantifier": "every well-formed JSON text (any nesting depth, any whitespace, any escapes, duplicate keys allowed), every path to a container, every well-formed value, every fresh key", "why_tests_cant": "The space of documents and paths is infinite and the scanner keeps hand-written state (quote flag, level counters, escape look-back) whose interaction only fails on particular combinations of nesting, escapes and whitespace; tests sample a few.", "anchors": ["inter_add.go:Add", "inter_add.go:AddKeyValue", "inter_delete.go:Delete"]}
{"id": "C30", "title": "IterateArray visits every element once, in order", "statement": "On a path to a non-empty array IterateArray calls the callback with the text of each element (trimmed, unquoted), in order, until the callback returns false or an error; it returns that error, and otherwise nil.", "quantifier": "every well-formed JSON text (any nesting depth, any whitespace, any escapes, duplicate keys allowed), every path to an array, every callback", "why_tests_cant": "Quantifies over all callbacks, including stateful ones and those that stop early.", "anchors": ["inter_iter.go:IterateArray", "utils.go:cleanValue"]}
{"id": "C31", "title": "IterateKeyValue visits every member once, in order", "statement": "On a path to a non-empty object IterateKeyValue calls the callback with each key and value text (trimmed, unquoted) in order until the callback returns false or an error, and returns that error.", "quantifier": "every well-formed JSON text (any nesting depth, any whitespace, any escapes, duplicate keys allowed), every path to an object, every callback", "why_tests_cant": "Quantifies over all callbacks; the error of the last call matters too.", "anchors": ["inter_iter.go:IterateKeyValue"]}
{"id": "C32", "title": "GetKeys lists the keys in order", "statement": "On a path to an object GetKeys returns its keys, without quotes, in the order of the text, duplicates included; on any other value it returns ObjectExpected.", "quantifier": "every well-formed JSON text (any nesting depth, any whitespace, any escapes, duplicate keys allowed), every path", "why_tests_cant": "The space of documents and paths is infinite and the scanner keeps hand-written state (quote flag, level counters, escape look-back) whose interaction only fails on particular combinations of nesting, escapes and whitespace; tests sample a few.", "anchors": ["inter_get.go:GetKeys"]}
{"id": "C33", "title": "GetValues and GetKeysValues list the members in order", "statement": "On a path to a non-empty object GetValues returns the value texts (trimmed, unquoted) in order, and GetKeysValues returns the keys of GetKeys and the values of GetValues, of equal length.", "quantifier": "every well-formed JSON text (any nesting depth, any whitespace, any escapes, duplicate keys allowed), every path to a non-empty object", "why_tests_cant": "The space of documents and paths is infinite and the scanner keeps hand-written state (quote flag, level counters, escape look-back) whose interaction only fails on particular combinations of nesting, escapes and whitespace; tests sample a few.", "anchors": ["inter_get.go:GetValues", "inter_get.go:GetKeysValues", "utils.go:cleanValueString"]}
{"id": "C34", "title": "GetMap holds every member", "statement": "On a path to a non-empty object GetMap maps each key to the text of its last member, and on an array each index to its element.", "quantifier": "every well-formed JSON text (any nesting depth, any whitespace, any escapes, duplicate keys allowed), every path to a non-empty object or array", "why_tests_cant": "The space of documents and paths is infinite and the scanner keeps hand-written state (quote flag, level counters, escape look-back) whose interaction only fails on particular combinations of nesting, escapes and whitespace; tests sample a few.", "anchors": ["inter_get.go:GetMap", "utils.go:getStartEnd"]}
{"id": "C35", "title": "GetAll and GetAllMap equal repeated Get", "statement": "GetAll returns the list of Get(path+k) for the given keys in order and fails with the first error; GetAllMap returns the map from each k to it.", "quantifier": "all byte sequences, key lists and paths", "why_tests_cant": "All key lists.", "anchors": ["inter_get.go:GetAll", "inter_get.go:GetAllMap"]}
{"id": "C36", "title": "Length counts the entries", "statement": "Length of a path to an array or object is its number of elements or members.", "quantifier": "every well-formed JSON text (any nesting depth, any whitespace, any escapes, duplicate keys allowed), every path (including the empty one) to a container", "why_tests_cant": "The space of documents and paths is infinite and the scanner keeps hand-written state (quote flag, level counters, escape look-back) whose interaction only fails on particular combinations of nesting, escapes and whitespace; tests sample a few.", "anchors": ["others.go:Length", "utils.go:getStartEnd"]}
{"id": "C37", "title": "IsEmpty tells empty containers", "statement": "IsEmpty on a path to an array or object returns true exactly when it has no entries, and ObjectExpected for any other value.", "quantifier": "every well-formed JSON text (any nesting depth, any whitespace, any escapes, duplicate keys allowed), every path", "why_tests_cant": "Off-by-one at the last content byte shows only on one-byte contents.", "anchors": ["inter_type.go:IsEmpty"]}
{"id": "C38", "title": "IsArray, IsObject, IsValue classify values", "statement": "IsArray is true exactly on arrays, IsObject exactly on objects, IsValue exactly on everything else.", "quantifier": "every well-formed JSON text (any nesting depth, any whitespace, any escapes, duplicate keys allowed), every path (including the empty one)", "why_tests_cant": "The space of documents and paths is infinite and the scanner keeps hand-written state (quote flag, level counters, escape look-back) whose interaction only fails on particular combinations of nesting, escapes and whitespace; tests sample a few.", "anchors": ["inter_type.go:IsArray", "inter_type.go:IsObject", "inter_type.go:IsValue"]}
{"id": "C39", "title": "GetType names the type", "statement": "GetType returns array, object or string according to the value, boolean for true/false, null for null and number for every number text.", "quantifier": "every well-formed JSON text (any nesting depth, any whitespace, any escapes, duplicate keys allowed), every resolving path", "why_tests_cant": "The space of documents and paths is infinite and the scanner keeps hand-written state (quote flag, level counters, escape look-back) whose interaction only fails on particular combinations of nesting, escapes and whitespace; tests sample a few.", "anchors": ["inter_type.go:GetType"]}
{"id": "C40", "title": "Flatten removes exactly the insignificant whitespace", "statement": "Flatten of a well-formed text is the text of the same document with no whitespace between tokens and identical tokens; it is idempotent and Get of any scalar path is unchanged.", "quantifier": "every well-formed JSON text (any nesting depth, any whitespace, any escapes, duplicate keys allowed)", "why_tests_cant": "The space of documents and paths is infinite and the scanner keeps hand-written state (quote flag, level counters, escape look-back) whose interaction only fails on particular combinations of nesting, escapes and whitespace; tests sample a few.", "anchors": ["others.go:Flatten"]}
{"id": "C41", "title": "Indent changes only whitespace", "statement": "Flatten(Indent(t)) = Flatten(t), Indent does not panic on a well-formed container, and every scalar Get is unchanged by Indent.", "quantifier": "every well-formed JSON text (any nesting depth, any whitespace, any escapes, duplicate keys allowed)", "why_tests_cant": "A string ending in an escaped backslash is needed to upset the quote tracking.", "anchors": ["others.go:Indent", "others.go:Flatten"]}
{"id": "C42", "title": "MakeArrayInt / GetIntArray round trip", "statement": "GetIntArray(MakeArrayInt(ns)) = ns for every non-empty list, and element i is Itoa(ns[i]).", "quantifier": "all non-empty lists of 64-bit integers", "why_tests_cant": "All lists of all lengths.", "anchors": ["make.go:MakeArrayInt", "inter_get.go:GetIntArray"]}
{"id": "C43", "title": "MakeArrayBool / GetBoolArray round trip", "statement": "GetBoolArray(MakeArrayBool(bs)) = bs for every non-empty list.", "quantifier": "all non-empty lists of booleans", "why_tests_cant": "All lists of all lengths.", "anchors": ["make.go:MakeArrayBool", "inter_get.go:GetBoolArray"]}
{"id": "C44", "title": "MakeArrayString / GetStringArray round trip", "statement": "GetStringArray(MakeArrayString(ss)) = ss for every non-empty list of strings that are plain text (valid string content, not empty, not starting or ending with blank, bracket or quote).", "quantifier": "all non-empty lists of such strings", "why_tests_cant": "All lists and all strings.", "anchors": ["make.go:MakeArrayString", "inter_get.go:GetStringArray", "others.go:ParseArray", "utils.go:formatType"]}
{"id": "C45", "title": "Make functions on empty input give an empty container", "statement": "MakeArray*, MakeJson* on an empty non-nil slice or map return [] or {}.", "quantifier": "all Make functions", "why_tests_cant": "The nil/non-nil distinction of Go slices.", "anchors": ["make.go:MakeArray", "make.go:MakeArrayInt", "make.go:MakeJson", "make.go:MakeJsonWithMap"]}
{"id": "C46", "title": "MakeJsonString builds the object it is given", "statement": "For equally long non-empty keys (distinct, valid key content) and values, MakeJsonString gives a well-formed object with these members in this order, and Get(k_i) returns the i-th value (unquoted); unequal lengths give nil.", "quantifier": "all key lists and value lists", "why_tests_cant": "All lists and all strings; every branch of the value classification.", "anchors": ["make.go:MakeJsonString", "make.go:MakeJson", "make.go:MakeJsonWithMap", "utils.go:formatType"]}
{"id": "C47", "title": "MakeArrayFloat writes every element", "statement": "MakeArrayFloat writes the decimal text of each float.", "quantifier": "all non-empty lists of floats", "why_tests_cant": "The trimming code looks for an exponent that the chosen format never prints.", "anchors": ["make.go:MakeArrayFloat"]}
{"id": "C48", "title": "Scheme is a set of keys with one saved snapshot", "statement": "Add refuses exactly the present keys and otherwise appends, Remove removes exactly the key, Restore brings back the keys of the last Save (or of MakeScheme), over every sequence of calls; no key ever appears twice if it did not at the start.", "quantifier": "all finite sequences of Add, Remove, Save and Restore", "why_tests_cant": "All call sequences.", "anchors": ["make.go:Scheme", "make.go:MakeScheme", "make.go:Scheme.Add", "make.go:Scheme.Remove", "make.go:Scheme.Save", "make.go:Scheme.Restore"]}
{"id": "C49", "title": "Scheme.Check and CheckAbs", "statement": "For an object with distinct keys and a scheme with distinct keys: Check is true iff every scheme key is present; CheckAbs is true iff the key sets are equal.", "quantifier": "every well-formed JSON text (any nesting depth, any whitespace, any escapes, duplicate keys allowed) that is an object, every scheme", "why_tests_cant": "The space of documents and paths is infinite and the scanner keeps hand-written state (quote flag, level counters, escape look-back) whose interaction only fails on particular combinations of nesting, escapes and whitespace; tests sample a few.", "anchors": ["make.go:Scheme.Check", "make.go:Scheme.CheckAbs", "inter_get.go:GetKeys"]}
{"id": "C50", "title": "Scheme.MutateJsonAbs projects the object", "statement": "If every scheme key is present at the root, MutateJsonAbs returns an object with exactly the scheme keys in scheme order, each with the value text of the source (strings re-quoted by type).", "quantifier": "every well-formed JSON text (any nesting depth, any whitespace, any escapes, duplicate keys allowed) that is an object, every scheme of distinct keys", "why_tests_cant": "The space of documents and paths is infinite and the scanner keeps hand-written state (quote flag, level counters, escape look-back) whose interaction only fails on particular combinations of nesting, escapes and whitespace; tests sample a few.", "anchors": ["make.go:Scheme.MutateJsonAbs", "make.go:Scheme.MutateJson"]}
{"id": "C51", "title": "JO methods are the byte functions on its body", "statement": "Each mutating method of JO sets the body to the bytes returned by the function of the same name and returns its error; reading methods return the function's result on the body.", "quantifier": "all bodies, all method calls, all call sequences", "why_tests_cant": "All methods over all states; one method has its own copy of the code.", "anchors": ["jin_object.go", "jin_object_add.go", "jin_object_set.go", "jin_object_others.go", "jin_object_get.go"]}
{"id": "C52", "title": "A failing JO call leaves the body unchanged", "statement": "Whenever a JO method returns an error, JSON() afterwards equals JSON() before.", "quantifier": "all bodies, all method calls", "why_tests_cant": "Every error path of every method.", "anchors": ["jin_object_add.go", "jin_object_set.go", "jin_object_others.go"]}
{"id": "C53", "title": "Parser.Get agrees with Get", "statement": "After Parse of a well-formed container text, Parser.Get returns the same bytes as Get for every resolving path.", "quantifier": "every well-formed JSON text (any nesting depth, any whitespace, any escapes, duplicate keys allowed) whose root is a container, every resolving path with canonical indices", "why_tests_cant": "The space of documents and paths is infinite and the scanner keeps hand-written state (quote flag, level counters, escape look-back) whose interaction only fails on particular combinations of nesting, escapes and whitespace; tests sample a few.", "anchors": ["parse_core.go:pCore", "parse_utils.go:Parse", "parse_get.go:Parser.Get"]}
{"id": "C54", "title": "Parser mutators keep JSON() in step with the byte functions", "statement": "After Parser.Set, Delete, SetKey at a resolving path, JSON() equals what the byte function of the same name returns on the previous JSON().", "quantifier": "all well-formed texts, all paths the parser resolves", "why_tests_cant": "All states and all calls.", "anchors": ["parse_set.go", "parse_delete.go", "parse_get.go:Parser.JSON"]}
{"id": "C55", "title": "Parser.Get after Parser.Set", "statement": "After Parser.Set of a scalar at a path that resolves in the parser, Parser.Get of that path returns the scalar (unquoted), and other leaf paths are unchanged.", "quantifier": "all parser states, all paths, all scalar texts", "why_tests_cant": "All states.", "anchors": ["parse_set.go:Parser.Set", "parse_get.go:Parser.Get"]}
{"id": "C56", "title": "Parser.Add and AddKeyValue give valid JSON", "statement": "After Parser.Add / AddKeyValue JSON() is well-formed and equals what Add / AddKeyValue returns on the previous JSON().", "quantifier": "all parser states over well-formed texts, all values", "why_tests_cant": "Root and nested cases, empty and non-empty, have different code.", "anchors": ["parse_add.go:Parser.Add", "parse_add.go:Parser.AddKeyValue"]}
{"id": "C57", "title": "Walk visits every leaf once, in order, with its path", "statement": "On a text whose containers are non-empty with distinct keys, Walk calls the callback exactly once per scalar in document order, with its key (or index), its text and its path, and Get of that path returns that text.", "quantifier": "every well-formed JSON text (any nesting depth, any whitespace, any escapes, duplicate keys allowed) without empty containers or duplicate keys, every callback that never returns an error", "why_tests_cant": "The space of documents and paths is infinite and the scanner keeps hand-written state (quote flag, level counters, escape look-back) whose interaction only fails on particular combinations of nesting, escapes and whitespace; tests sample a few.", "anchors": ["walk.go:Walk"]}
{"id": "C58", "title": "ErrEqual recognises exactly the code of a package error", "statement": "For every error produced by this package and every code, ErrEqual returns true iff the code is the error's code, whatever keys or values the message embeds.", "quantifier": "all package errors (with arbitrary embedded text) and all codes", "why_tests_cant": "The code is re-parsed from the message text, which embeds arbitrary user bytes.", "anchors": ["errors.go:ErrEqual"]}
{"id": "C59", "title": "Sized-integer writers write decimal numbers", "statement": "AddInt32/64, AddUint/32/64 and their Insert and AddKeyValue variants store the decimal text of the number.", "quantifier": "all integers of the given size", "why_tests_cant": "All integers; the base argument is only wrong from 10 on.", "anchors": ["inter_add.go:AddInt32", "inter_add.go:AddInt64", "inter_add.go:AddUint", "inter_add.go:InsertInt64", "inter_add.go:AddKeyValueUint64"]}
{"id": "C60", "title": "String values become valid JSON tokens", "statement": "The text that AddString, SetString, StoreString, MakeArrayString write for s is a JSON value for every s that is valid JSON string content or a JSON value.", "quantifier": "all strings", "why_tests_cant": "Number syntax accepted by the float/int parsers is wider than JSON's.", "anchors": ["utils.go:formatType", "inter_add.go:AddString", "inter_set.go:SetString"]}
{"id": "C61", "title": "Array readers return every element", "statement": "GetStringArray, GetIntArray and GetBoolArray on a path to a non-empty array return the element texts (trimmed, unquoted, converted) in order.", "quantifier": "every well-formed JSON text (any nesting depth, any whitespace, any escapes, duplicate keys allowed), every path to a non-empty array", "why_tests_cant": "The trimming helper has a boundary case on one-byte elements followed by blanks.", "anchors": ["inter_get.go:GetStringArray", "inter_get.go:GetIntArray", "inter_get.go:GetBoolArray", "others.go:ParseArray", "utils.go:cleanValueString"]}
{"id": "C62", "title": "Well-formed trees are exactly the RFC 8259 texts", "statement": "A byte string is a JSON text by the grammar of RFC 8259 exactly if it is the rendering of a well-formed document with RFC scalars and strings, and two well-formed documents with the same text have the same tree, so what a path leads to is a matter of the bytes alone.", "quantifier": "all byte strings", "why_tests_cant": "Every other property is stated over trees; only a proof shows the trees cover every JSON text and that a text has one reading.", "anchors": ["inter_core.go:core", "inter_get.go:Get"]}
{"id": "C63", "title": "Mutators keep an RFC 8259 text an RFC 8259 text", "statement": "Set, Delete, Add, AddKeyValue, SetKey, Insert and Store on an RFC 8259 text, at a target that exists, with an RFC value and an RFC string as key, return an RFC 8259 text.", "quantifier": "all RFC 8259 texts, all paths to existing targets, all RFC values and keys", "why_tests_cant": "Any nesting, whitespace and escapes; the result has to be parsed by an independent grammar.", "anchors": ["inter_set.go:Set", "inter_set.go:SetKey", "inter_delete.go:Delete", "inter_add.go:Add", "inter_add.go:AddKeyValue", "inter_add.go:Insert", "inter_set.go:Store"]}
{"id": "C64", "title": "The tree of a Parser stays in step with its text", "statement": "After Parse and any sequence of Set, SetKey, Delete, Add and AddKeyValue on the Parser that report success, Parser.Get of every path gives what Get gives on the text the Parser now holds, for every path a fresh Parse of that text would resolve.", "quantifier": "all documents, all sequences of calls of any length, all paths", "why_tests_cant": "Sequences of calls and tree shapes are unbounded; each call updates the tree and the text by separate code, and only their agreement at every path shows that they match.", "anchors": ["parse_set.go:Set", "parse_set.go:SetKey", "parse_delete.go:Delete", "parse_add.go:Add", "parse_add.go:AddKeyValue", "parse_get.go:Get", "parse_utils.go:walk"]}
{"id": "C65", "title": "Typed Parser getters agree with the typed functions", "statement": "After Parse and any sequence of successful Parser calls, Parser.GetString, GetInt, GetFloat, GetBool, GetStringArray, GetIntArray, GetFloatArray and GetBoolArray of a path return what the functions of the same name return on the text the Parser now holds, for every path the tree resolves.", "quantifier": "all documents, all sequences of calls, all paths the tree resolves", "why_tests_cant": "Each getter is a separate copy of the code; agreement has to hold for every value, including the error cases and their payloads.", "anchors": ["parse_get.go:GetString", "parse_get.go:GetInt", "parse_get.go:GetFloat", "parse_get.go:GetBool", "parse_get.go:GetStringArray", "parse_get.go:GetIntArray", "parse_get.go:GetFloatArray", "parse_get.go:GetBoolArray"]}
{"id": "C66", "title": "GetNew rebuilds the current value", "statement": "After Parse and any sequence of successful Parser calls, GetNew of a path the tree resolves returns the text of the value that the Parser's text has there, up to whitespace between tokens.", "quantifier": "all documents of any depth, all sequences of calls, all paths", "why_tests_cant": "GetNew reassembles the text recursively from the nodes; stale nodes at any depth would show.", "anchors": ["parse_get.go:GetNew", "parse_utils.go:dive"]}
{"id": "C67", "title": "Parser.Insert keeps text and tree together", "statement": "When Parser.Insert reports success the text is what Insert gives on the text before, and Parser.Get of every path gives the value the new text has there, for every path a fresh Parse of that text would resolve.", "quantifier": "all documents, arrays, indices, values and paths", "why_tests_cant": "All later elements are relabelled; every index of an array of any length, and every path below, has to be right.", "anchors": ["parse_add.go:Insert", "parse_utils.go:insert"]}
{"id": "C68", "title": "Tree lists the document", "statement": "Tree lists the label of every entry of the document, in the order of the text and indented by its depth; TreeFull adds the text of its value.", "quantifier": "all documents of any depth and width", "why_tests_cant": "Unbounded nesting; one-element containers are handled apart by the parser.", "anchors": ["parse_utils.go:Tree", "parse_utils.go:TreeFull", "parse_utils.go:createTree"]}
{"id": "C69", "title": "Typed Parser mutators write what the typed functions write", "statement": "When a typed Set, Add, AddKeyValue or Insert method of Parser (String, Int, Float, Bool) reports success, the text is what the function of the same name gives on the text before.", "quantifier": "all parser states, paths, keys, indices and values", "why_tests_cant": "Sixteen method pairs over all values and states; the string variants decide about quoting separately.", "anchors": ["parse_set.go:SetString", "parse_set.go:SetInt", "parse_set.go:SetFloat", "parse_set.go:SetBool", "parse_add.go:AddString", "parse_add.go:AddInt", "parse_add.go:AddFloat", "parse_add.go:AddBool", "parse_add.go:AddKeyValueString", "parse_add.go:InsertString", "inter_set.go:SetString"]}
{"id": "C70", "title": "Get and Set address the same bytes of any text", "statement": "On any byte string, JSON or not, Get and Set of the same path either both panic, or report the same error and Set returns the text unchanged, or there is one piece of the text that Get returns without its quotes and Set replaces.", "quantifier": "all byte strings, non-empty paths and new values", "why_tests_cant": "All byte strings, including broken ones; a reader and a writer that disagree on broken input corrupt data silently.", "anchors": ["inter_core.go:core", "inter_get.go:Get", "inter_set.go:Set", "utils.go:replace"]}
{"id": "C71", "title": "Mutators change one place of any text", "statement": "On any byte string, a mutator that reports success changes one place only: Add and AddKeyValue put the value (with a comma, and the quoted key) right before a closing bracket, Insert puts the value and one comma somewhere, SetKey replaces text up to a quote, Delete removes one piece that contains what Get returns.", "quantifier": "all byte strings, paths, keys and values", "why_tests_cant": "Damage on broken input is a matter of unforeseen inputs; the claim covers all of them.", "anchors": ["inter_add.go:Add", "inter_add.go:AddKeyValue", "inter_add.go:Insert", "inter_set.go:SetKey", "inter_delete.go:Delete"]}
{"id": "C72", "title": "Mutators do not panic on texts with a settled end", "statement": "If the last byte of a text is not whitespace, a colon, a comma or an opening square bracket then Set, SetKey, Add, AddKeyValue, Insert and Delete return instead of panicking, whatever the rest of the text is.", "quantifier": "all byte strings with such a last byte, all paths, keys, indices and values", "why_tests_cant": "Absence of out-of-range accesses over all malformed inputs.", "anchors": ["inter_core.go:core", "inter_add.go:Add", "inter_add.go:AddKeyValue", "inter_add.go:Insert", "inter_set.go:SetKey", "inter_delete.go:Delete"]}
{"id": "C73", "title": "Broken, empty and blank input is refused with the right error", "statement": "An index beyond the commas of a cut-off array is out of range for Get, Set and Delete. An opening bracket that ends the text is bad JSON for the functions that add to the root, at its position. The type questions refuse the empty text. Iterating over an array calls nothing and reports bad JSON on texts shorter than two bytes, on two-byte texts other than [] and on blank texts. The parser methods refuse an empty path, key or value and change nothing. Taking off quotes takes off exactly one pair and leaves every other text alone.", "quantifier": "all cut-off arrays without quotes and inner brackets, all blank texts, all parsers and arguments, all byte strings", "why_tests_cant": "The error must be right for every length and every index, not for a few.", "anchors": ["inter_core.go:core", "inter_add.go:Add", "inter_add.go:Insert", "inter_add.go:AddKeyValue", "inter_type.go:typeControlCore", "inter_iter.go:IterateArray", "parse_add.go:Insert", "utils.go:stripQuotes"]}
{"id": "C74", "title": "Add, Insert and AddKeyValue refuse the wrong kind of value", "statement": "If the path leads to a value that is not an array then Add and Insert return the error for a wrong type and leave the document alone; if it leads to a value that is not an object then AddKeyValue does.", "quantifier": "all documents, all paths into them, all keys, indices and values", "why_tests_cant": "All kinds of values at all places; strings whose text looks like an array are the exception a test would not think of.", "anchors": ["inter_add.go:Add", "inter_add.go:AddKeyValue", "inter_add.go:Insert"]}
{"id": "C75", "title": "Calls leave the caller's slices alone", "statement": "AddKeyValue, Insert, Store, GetAll and GetAllMap change no string slice of the caller, whatever path slice they are given.", "quantifier": "all memories, slices, texts, keys and values, all growth policies of append", "why_tests_cant": "Whether a call scribbles over an array depends on capacities that tests rarely vary.", "anchors": ["inter_add.go:AddKeyValue", "inter_add.go:Insert", "inter_set.go:Store", "inter_get.go:GetAll", "inter_get.go:GetAllMap", "jin_object_add.go:Store"]}
{"id": "C76", "title": "Results do not depend on how arguments share memory", "statement": "The results of AddKeyValue, Insert, Store, GetAll and GetAllMap depend on the contents of the path and key slices only, not on where these lie in memory or whether they overlap.", "quantifier": "all memories, overlapping or not, all slices, texts, keys and values", "why_tests_cant": "Overlapping arguments come in endless arrangements.", "anchors": ["inter_add.go:AddKeyValue", "inter_add.go:Insert", "inter_set.go:Store", "inter_get.go:GetAll", "inter_get.go:GetAllMap"]}
{"id": "C77", "title": "Paths handed out by Walk are right and stay right", "statement": "Each path that Walk hands to its callback reads as the path of the leaf while the callback runs and after the walk, and Walk changes no slice of the caller.", "quantifier": "all texts, callbacks, memories and growth policies of append", "why_tests_cant": "Sharing of arrays shows only at some depths and only if the callback keeps its argument.", "anchors": ["walk.go:Walk", "walk.go:walk"]}
{"id": "C78", "title": "A Scheme works whatever slice it is made from", "statement": "Over every history of Add, Remove, Save and Restore the keys, the saved keys and the answers are those of the key list, even though keys, saved keys and the caller's slice share memory; slices of the caller outside the spare capacity of the given one do not change.", "quantifier": "all memories, slices, histories and growth policies of append", "why_tests_cant": "Sharing between the saved and the current keys depends on the history.", "anchors": ["make.go:MakeScheme", "make.go:Add", "make.go:Remove", "make.go:Save", "make.go:Restore"]}
{"id": "C79", "title": "Two Schemes do not disturb each other", "statement": "After any interleaved calls on two schemes each has the keys and saved keys that its own calls give.", "quantifier": "all memories, slices and interleavings of calls", "why_tests_cant": "Interleavings and capacities are unbounded.", "anchors": ["make.go:MakeScheme", "make.go:Add", "make.go:Remove", "make.go:Save", "make.go:Restore"]}
{"id": "C80", "title": "Key lists handed out stay as they are", "statement": "The list that GetCurrentKeys returned reads the same after any further calls on the scheme.", "quantifier": "all memories, schemes and histories", "why_tests_cant": "It takes a certain history and capacity to see a list change.", "anchors": ["make.go:GetCurrentKeys", "make.go:Add", "make.go:Restore"]}
{"id": "C81", "title": "Get composes", "statement": "Get of a path that resolves is Get of its second part in what Get of its first part returns.", "quantifier": "all documents, all resolving paths, every way to split them", "why_tests_cant": "The number of documents and splits is unbounded.", "anchors": ["inter_get.go:Get", "inter_core.go:core"]}
{"id": "C82", "title": "Set composes", "statement": "Set at a path that resolves is: Get the part the first half leads to, Set in it, Set the result in its place.", "quantifier": "all documents, resolving paths, splits and new texts", "why_tests_cant": "The number of documents and splits is unbounded.", "anchors": ["inter_set.go:Set", "inter_get.go:Get"]}
{"id": "C83", "title": "What follows the document does not matter", "statement": "With any bytes behind the document, Get answers the same, and Set, Delete and Add give the same text followed by these bytes.", "quantifier": "all documents, all trailing bytes, all paths", "why_tests_cant": "The bytes behind a document can be anything.", "anchors": ["inter_core.go:core", "inter_get.go:Get", "inter_set.go:Set", "inter_delete.go:Delete", "inter_add.go:Add"]}
{"id": "C84", "title": "Length follows the mutations", "statement": "A successful Add, AddKeyValue or Insert raises Length of the container by one, a Delete lowers it by one, Set and SetKey inside it keep it.", "quantifier": "all documents, containers and values", "why_tests_cant": "Needs every container and value.", "anchors": ["others.go:Length", "inter_add.go:Add", "inter_add.go:AddKeyValue", "inter_add.go:Insert", "inter_delete.go:Delete", "inter_set.go:Set", "inter_set.go:SetKey"]}
{"id": "C85", "title": "Delete undoes Insert", "statement": "Deleting the element that Insert put into an array gives back the original text, byte for byte.", "quantifier": "all documents, arrays, positions (where Insert keeps C23) and values", "why_tests_cant": "Whitespace around elements is unbounded.", "anchors": ["inter_add.go:Insert", "inter_delete.go:Delete"]}
{"id": "C86", "title": "Renaming back", "statement": "After SetKey renamed a member, SetKey with the old key either gives the original text, byte for byte, or is refused and changes nothing.", "quantifier": "all documents, objects with one member of the old key, new keys the object lacks", "why_tests_cant": "Documents and keys are unbounded.", "anchors": ["inter_set.go:SetKey"]}
{"id": "C87", "title": "Delete and Set elsewhere commute", "statement": "Delete of an entry and Set at a place that is neither in nor above it give the same text in either order (for arrays with the index of the moved elements).", "quantifier": "all documents, all such pairs of paths, all values", "why_tests_cant": "Pairs of paths in documents are unbounded.", "anchors": ["inter_delete.go:Delete", "inter_set.go:Set"]}
{"id": "C88", "title": "A BadJSON error names a position of the text", "statement": "When a function of the package returns a BadJSON error, the position n it names satisfies 0 <= n <= len(json), for any bytes whatever.", "quantifier": "all byte strings, paths, keys and values; all callbacks whose own errors keep it", "why_tests_cant": "The position is computed by the scanning loops; inputs are unbounded and need not be JSON.", "anchors": ["errors.go:errBadJSON", "inter_core.go:core", "inter_set.go:SetKey", "inter_iter.go:IterateArray"]}
{"id": "C89", "title": "Parser.AddKeyValue refuses an existing key", "statement": "Parser.AddKeyValue with a key that the object already has returns the key-already-exists error with that key and leaves the parser as it was.", "quantifier": "all parsers whose tree shows their text, all objects of the document, all keys of theirs and all values", "why_tests_cant": "Documents, paths and values are unbounded.", "anchors": ["parse_add.go:AddKeyValue"]}
{"id": "C90", "title": "IterateArray never panics on arbitrary bytes", "statement": "IterateArray with a callback that does not panic never panics: with no path on any bytes whatever, with a path on any bytes whose last byte is not whitespace, a colon, a comma or '['.", "quantifier": "all byte strings, all callbacks that do not panic (stopping and failing ones included), all paths", "why_tests_cant": "The input need not be JSON: quotes, brackets and commas may come in any order, and cleanValue must never meet a lone quote.", "anchors": ["inter_iter.go:IterateArray", "utils.go:cleanValue"]}
{"id": "C91", "title": "The texts on which the readers of an object panic", "statement": "GetKeys panics exactly on blank texts and on objects with a colon directly inside before any string has ended; GetValues exactly on blank texts and on objects where nothing, or four or more bytes of whitespace alone, lie between a colon or comma directly inside and the next comma or closing bracket; GetKeysValues where one of them does; IterateKeyValue with a callback that goes on exactly on blank texts, on GetKeys' objects, and where a colon directly inside is followed by at most whitespace and '}'.", "quantifier": "all byte strings", "why_tests_cant": "An exact description of all failing inputs among arbitrary bytes.", "anchors": ["inter_get.go:GetKeys", "inter_get.go:GetValues", "inter_get.go:GetKeysValues", "inter_iter.go:IterateKeyValue", "utils.go:cleanValueString"]}
{"id": "C92", "title": "The texts on which Parse panics", "statement": "Parse panics exactly on texts of at least two bytes that are blank, or have a prefix closing more brackets outside strings than it opens, or begin with whitespace and have a colon outside strings before any string has ended; on all other bytes it returns a parser or an error.", "quantifier": "all byte strings", "why_tests_cant": "An exact description of all failing inputs among arbitrary bytes.", "anchors": ["parse_core.go:pCore", "parse_utils.go:Parse", "sequence.go:pop"]}
{"id": "C93", "title": "Mutators leave memory alone and return fresh memory", "statement": "Set, SetKey, AddKeyValue, Add, Insert, Delete, Store and their string variants, run on Go memory with arbitrary sharing and capacities: no byte that existed before the call changes; on success the result is a new array of exactly its length, so later appends to it or writes to the old buffer do not meet; on error the given slice is returned; and the bytes and the error are those of the functions on plain bytes.", "quantifier": "all memories, all slices of it as document and value (overlapping or not), all paths, all allocation policies", "why_tests_cant": "Aliasing and capacity vary without bound; a test fixes one layout of memory.", "anchors": ["utils.go:replace", "inter_set.go:Set", "inter_add.go:AddKeyValue", "inter_add.go:Add", "inter_add.go:Insert", "inter_delete.go:Delete", "inter_set.go:Store"]}
{"id": "C94", "title": "The slice that Get returns", "statement": "Get returns a part of the document's own memory, with the bytes Get gives on plain bytes and all the capacity behind it. The caller may append to it without changing the document.", "quantifier": "all memories, slices, paths, appended bytes", "why_tests_cant": "The effect depends on capacities, not on the text.", "anchors": ["inter_get.go:Get"]}
{"id": "C95", "title": "Callbacks on slices of the document", "statement": "IterateArray, IterateKeyValue and Walk hand their callback parts of the document's memory. The callback may use them as its own without changing what the iteration visits next.", "quantifier": "all memories, slices, paths and callbacks over memory", "why_tests_cant": "Quantifies over all callbacks and memory layouts.", "anchors": ["inter_iter.go:IterateArray", "inter_iter.go:IterateKeyValue", "walk.go:walk"]}
{"id": "C96", "title": "Parsers on pointers give the answers of parsers as values", "statement": "Nodes of parsers are cells of one memory linked by `up` and `down` pointers; every assignment of the code is a write to it. A program that parses any texts and calls Get, GetNew, Tree, Set, SetKey, Delete, AddKeyValue, Add and Insert on its parsers in any order gets the same answers, up to the first panic, as from parsers that are separate values (trees with label paths).", "quantifier": "all finite sequences of calls on any number of parsers, all texts, values, keys and paths", "why_tests_cant": "Pointer sharing and order of calls vary without bound.", "anchors": ["parse_core.go:pCore", "parse_utils.go:walk", "parse_utils.go:dive", "parse_utils.go:insert", "parse_utils.go:deAttach", "parse_utils.go:getIndex", "parse_utils.go:createTree", "parse_set.go:Set", "parse_set.go:SetKey", "parse_add.go:AddKeyValue", "parse_add.go:Add", "parse_add.go:Insert", "parse_delete.go:Delete", "parse_get.go:Get", "parse_get.go:GetNew"]}
{"id": "C97", "title": "Nodes of parsers are separate trees", "statement": "After any calls the nodes below a parser form a tree: the `up` of each child is the node that has it, there is no cycle, no two children share a node, and no two parsers share a node. A further call on one parser changes nothing that Get, GetNew or Tree read through another.", "quantifier": "all finite sequences of calls on any number of parsers", "why_tests_cant": "A statement about all reachable memories.", "anchors": ["parse_core.go:pCore", "parse_utils.go:insert", "parse_utils.go:deAttach", "parse_set.go:Set", "parse_add.go:AddKeyValue"]}
{"id": "C98", "title": "The functions of the text do what the model does", "statement": "The text of utils.go, inter_core.go, inter_get.go, inter_set.go, inter_add.go, inter_delete.go, inter_type.go, inter_iter.go, others.go and make.go, read and run statement by statement by a semantics of the Go fragment it uses, returns for every argument exactly what the model returns: same values, same error, or a panic in both. The path may be passed as a slice or written out.", "quantifier": "all byte texts, paths, keys, values, indices, float libraries, and callbacks", "why_tests_cant": "Equality of two programs on all inputs, well formed or not.", "anchors": ["inter_core.go:core", "inter_get.go:Get", "inter_set.go:Set", "inter_set.go:SetKey", "inter_add.go:AddKeyValue", "inter_add.go:Add", "inter_add.go:Insert", "inter_set.go:Store", "inter_delete.go:Delete", "inter_type.go:GetType", "inter_type.go:IsEmpty", "inter_iter.go:IterateArray", "inter_iter.go:IterateKeyValue", "inter_get.go:GetKeys", "inter_get.go:GetKeysValues", "inter_get.go:GetAll", "others.go:ParseArray", "others.go:Flatten", "others.go:Indent", "others.go:Length", "make.go:MakeArrayString", "make.go:MakeJsonString"]}
{"id": "C99", "title": "Every call comes to an end", "statement": "Run on the text, each reader (Get, typed getters, array readers, GetKeys, GetValues, GetKeysValues, Length, type tests) and each mutator (Set, SetKey, Add, AddKeyValue, Insert, Store, Delete) returns or panics after finitely many steps on every text, key, value and path: no loop runs for ever.", "quantifier": "all byte texts, paths, keys, values and indices", "why_tests_cant": "Termination on all inputs, including texts that are not JSON.", "anchors": ["inter_core.go:core", "inter_get.go:Get", "inter_set.go:Set", "inter_set.go:SetKey", "inter_add.go:AddKeyValue", "inter_add.go:Add", "inter_add.go:Insert", "inter_set.go:Store", "inter_delete.go:Delete", "inter_get.go:GetKeys", "others.go:Length"]}
{"id": "C100", "title": "The central properties hold of the text", "statement": "Run on the text: Get returns the addressed value of a document; after Set, Get returns the value set and answers as before elsewhere; SetInt and GetInt round trip; Delete removes exactly the addressed entry; Add appends one element; AddKeyValue appends one member or refuses an existing key; Insert puts the value before the indexed element; SetKey renames one member; a missing key is reported; Get does not panic on a text that ends with a closing bracket; Flatten removes the insignificant whitespace; GetKeys and Length list and count.", "quantifier": "all well-formed documents, paths, values, keys", "why_tests_cant": "Unbounded documents and paths.", "anchors": ["inter_get.go:Get", "inter_set.go:Set", "inter_set.go:SetKey", "inter_add.go:AddKeyValue", "inter_add.go:Add", "inter_add.go:Insert", "inter_delete.go:Delete", "others.go:Flatten", "inter_get.go:GetKeys", "others.go:Length"]}
{"id": "C101", "title": "The iterators of the text visit every element in order", "statement": "Run on the text with any callback, IterateArray calls it on each element of the addressed array in order until it stops or fails, and IterateKeyValue calls it on each key and value of the addressed object.", "quantifier": "all well-formed documents, paths, callbacks with state", "why_tests_cant": "All callbacks and unbounded documents.", "anchors": ["inter_iter.go:IterateArray", "inter_iter.go:IterateKeyValue"]}
{"id": "C102", "title": "A path is followed only as deep as the text is long, so Walk ends", "statement": "On every text, well formed or not, Get succeeds only on paths with fewer elements than the text has bytes. Therefore the recursion of Walk comes to an end: any bound on its depth that is at least the length of the text gives the same visits, the same error or panic.", "quantifier": "all byte texts, paths and callbacks with state", "why_tests_cant": "All texts, including malformed ones, and all paths.", "anchors": ["inter_core.go:core", "inter_get.go:Get", "inter_type.go:GetType", "walk.go:walk", "walk.go:Walk"]}
{"id": "C103", "title": "The methods of JO in the text do what the model of JO does", "statement": "Each method of JO that sets, adds, inserts, stores, deletes or reads, run on the text with the receiver passed in and out, leaves the body and returns the values and the error that the model gives, on every body, well formed or not.", "quantifier": "all bodies, operations, arguments, paths and float libraries", "why_tests_cant": "Equality of two programs on all inputs.", "anchors": ["jin_object_set.go:JO.Set", "jin_object_set.go:JO.SetString", "jin_object_set.go:JO.SetKey", "jin_object_add.go:JO.Add", "jin_object_add.go:JO.AddKeyValue", "jin_object_add.go:JO.Insert", "jin_object_add.go:JO.Store", "jin_object_others.go:JO.Delete", "jin_object_get.go:JO.Get", "jin_object_get.go:JO.GetInt", "jin_object_get.go:JO.GetKeys", "jin_object_others.go:JO.IsEmpty", "jin_object.go:New", "jin_object.go:NewJSON"]}
{"id": "C104", "title": "Walk, iterators, maps and Scheme of the text do what the model does", "statement": "Walk, IterateArray and IterateKeyValue (and their JO methods) of the text, run with any function with state as callback, make the visits of the model and return its error; GetMap, GetAllMap, MakeArray, MakeJson, MakeJsonWithMap, MakeScheme and every method of Scheme of the text return what the model returns, on every text, well formed or not.", "quantifier": "all byte texts, paths, callbacks with state, keys, values, schemes and float libraries", "why_tests_cant": "Equality of two programs on all inputs.", "anchors": ["walk.go:walk", "walk.go:Walk", "walk.go:JO.Walk", "inter_iter.go:IterateArray", "inter_iter.go:IterateKeyValue", "inter_get.go:GetMap", "inter_get.go:GetAllMap", "make.go:MakeArray", "make.go:MakeJson", "make.go:MakeJsonWithMap", "make.go:MakeScheme", "make.go:Scheme.Add", "make.go:Scheme.Remove", "make.go:Scheme.Save", "make.go:Scheme.Restore", "make.go:Scheme.Check", "make.go:Scheme.CheckAbs", "make.go:Scheme.MutateJson", "make.go:Scheme.MutateJsonAbs", "make.go:Scheme.MakeJson", "make.go:Scheme.MakeJsonString", "make.go:Scheme.GetOriginalKeys", "make.go:Scheme.GetCurrentKeys"]}
{"id": "C105", "title": "Walk of the text ends, and visits every leaf once", "statement": "Walk of the text comes to an end on every text for every callback. On a text whose containers are non-empty with distinct keys it calls a callback that returns no error once per scalar, in document order, with the last entry of its path, its content and its path. GetMap of the text on the root object gives each key its last value; GetAllMap of the text holds what Get of the text finds under each requested key, and nothing else.", "quantifier": "all texts, documents, callbacks with state, paths and keys", "why_tests_cant": "All documents and callbacks; termination on every text.", "anchors": ["walk.go:Walk", "walk.go:walk", "inter_get.go:GetMap", "inter_get.go:GetAllMap"]}
{"id": "C106", "title": "A Scheme of the text restores, checks and projects", "statement": "After MakeScheme of the text and any history of Add, Remove, Save and Restore of the text, Restore gives the keys as they were at the last Save, and the keys stay distinct. Check and CheckAbs of the text decide whether the root object has the keys (exactly the keys), and MutateJsonAbs of the text writes the object with the keys of the scheme in order, in which Get of the text finds what it finds in the source.", "quantifier": "all histories of calls, keys and documents", "why_tests_cant": "Histories of any length, documents of any size.", "anchors": ["make.go:MakeScheme", "make.go:Scheme.Add", "make.go:Scheme.Remove", "make.go:Scheme.Save", "make.go:Scheme.Restore", "make.go:Scheme.Check", "make.go:Scheme.CheckAbs", "make.go:Scheme.MutateJson", "make.go:Scheme.MutateJsonAbs"]}
{"id": "C107", "title": "Programs on the parsers of the text answer as values do", "statement": "A program that parses texts and calls Set, SetKey, Delete, AddKeyValue, Add, Insert, Get and GetNew of its parsers in any order, run on the text of /repo over one memory of nodes, ends or panics, and the answers it gets are those of parsers that are values of their own. After it the nodes of the parsers are separate trees with correct up pointers, and each parser reads as its value does.", "quantifier": "all programs of calls, texts, paths and values", "why_tests_cant": "Programs of any length over any number of parsers sharing one memory.", "anchors": ["parse_utils.go:Parse", "parse_core.go:pCore", "parse_set.go:Set", "parse_set.go:SetKey", "parse_delete.go:Delete", "parse_add.go:AddKeyValue", "parse_add.go:Add", "parse_add.go:Insert", "parse_get.go:Get", "parse_get.go:GetNew", "parse_utils.go:walk", "parse_utils.go:insert", "parse_utils.go:dive", "parse_utils.go:deAttach"]}
{"id": "C108", "title": "Programs with the typed methods of the parsers of the text", "statement": "C107 for programs that also call the typed mutators (SetString to InsertBool), the typed getters (GetString to GetBoolArray) JSON, Tree and TreeFull of Parser: run on the text of /repo they end or panic, and their answers are those of parsers that are values of their own.", "quantifier": "all programs of calls, texts, paths and values", "why_tests_cant": "Programs of any length over any number of parsers sharing one memory.", "anchors": ["parse_utils.go:Parse", "parse_get.go:JSON", "parse_set.go:SetString", "parse_set.go:SetInt", "parse_set.go:SetFloat", "parse_set.go:SetBool", "parse_add.go:AddKeyValueString", "parse_add.go:AddString", "parse_add.go:InsertString", "parse_get.go:GetString", "parse_get.go:GetInt", "parse_get.go:GetFloat", "parse_get.go:GetBool", "parse_get.go:GetStringArray", "parse_get.go:GetIntArray", "parse_get.go:GetFloatArray", "parse_get.go:GetBoolArray", "parse_utils.go:Tree", "parse_utils.go:TreeFull", "parse_utils.go:createTree"]}
{"id": "C109", "title": "What a parser of the text keeps in step", "statement": "Said of the text of /repo: Parse of a well formed object or array succeeds and Get then gives the content of every value that the path leads to and an error elsewhere; after Set with a scalar Get gives the scalar there and what it gave before elsewhere; a mutator that returns no error on a path that is not empty leaves the text that the function of the same name makes; and after calls that keep tree and text in step each typed getter gives what the function of the same name gives on the text held.", "quantifier": "all documents, programs of calls, paths and values", "why_tests_cant": "Documents and programs of any size.", "anchors": ["parse_utils.go:Parse", "parse_core.go:pCore", "parse_get.go:Get", "parse_set.go:Set", "parse_set.go:SetKey", "parse_delete.go:Delete", "parse_add.go:Add", "parse_add.go:AddKeyValue", "inter_set.go:Set", "inter_delete.go:Delete", "inter_add.go:Add", "parse_get.go:GetString", "inter_get.go:GetString"]}
{"id": "C110", "title": "The errors of the text", "statement": "Said of the text of /repo: each function of errors.go that makes an error gives one whose message is the text of the error, ' error_code: ' and the two digits of its code; the code is the constant of that name; ErrEqual on the error is true for exactly that code, and false on nil.", "quantifier": "all package errors with any embedded text or number, all codes", "why_tests_cant": "Embedded texts and codes are unbounded.", "anchors": ["errors.go:ErrEqual", "errors.go:errNullPath", "errors.go:errEmptyArray", "errors.go:errIndexExpected", "errors.go:errObjectExpected", "errors.go:errArrayExpected", "errors.go:errIndexOutOfRange", "errors.go:errKeyNotFound", "errors.go:errBadJSON", "errors.go:errKeyAlreadyExist", "errors.go:errIntegerParse", "errors.go:errFloatParse", "errors.go:errBoolParse", "errors.go:errStringArrayParse", "errors.go:errIntegerArrayParse", "errors.go:errFloatArrayParse", "errors.go:errBoolArrayParse", "errors.go:errNullKey", "errors.go:errEmpty"]}
{"id": "C111", "title": "The drawings of the text", "statement": "Said of the text of /repo: after Parse of a well formed object or array, Tree gives the outline of the document and TreeFull the outline with labels filled up to six characters and the texts of the values, and neither changes the parser; Tree still gives the outline of the text held after calls that keep tree and text in step.", "quantifier": "all documents and programs of calls", "why_tests_cant": "Documents and programs of any size.", "anchors": ["parse_utils.go:Tree", "parse_utils.go:TreeFull", "parse_utils.go:createTree", "parse_utils.go:Parse"]}
{"id": "C112", "title": "A parser never writes to bytes it shares", "statement": "Over a memory of byte arrays and nodes, where Parse and the edits keep slices of the bytes they are given, labels are strings made from byte slices without a copy, and results are slices of the same arrays: no method of any parser changes a byte of an array that existed before the call, so every slice handed in or out keeps its bytes; and any program that makes slices, parses, edits and reads several parsers, and writes only to arrays no parser uses, gets at each call the bytes and errors of parsers that own their bytes.", "quantifier": "all programs, all documents and values, any spare capacity, any growth policy of append", "why_tests_cant": "Aliasing shows only in the right order of calls on shared arrays; programs are unbounded.", "anchors": ["parse_utils.go:Parse", "parse_core.go:pCore", "utils.go:byteArrayToString", "parse_get.go:Get", "parse_get.go:JSON", "parse_get.go:GetNew", "parse_set.go:Set", "parse_set.go:SetKey", "parse_add.go:AddKeyValue", "parse_add.go:Add", "parse_add.go:Insert", "parse_delete.go:Delete"]}
{"id": "C113", "title": "A parser owns its content", "statement": "Whatever a program writes to its own slices after it gave them to Parse or to an edit, or to a slice it got from Get or JSON, the answers of its parsers are those of parsers that own their bytes.", "quantifier": "all programs of calls and writes", "why_tests_cant": "Needs writes between calls; programs are unbounded.", "anchors": ["parse_utils.go:Parse", "parse_core.go:pCore", "utils.go:byteArrayToString", "parse_set.go:Set", "parse_get.go:Get", "parse_get.go:JSON"]}
{"id": "C114", "title": "Numbers that fit are numbers", "statement": "What the package takes for a floating point number, by asking strconv.ParseFloat, contains among the numbers of RFC 8259 exactly those whose magnitude is below 2^1024 - 2^970; these and no others are named number by GetType at every path. Anything else it accepts is, behind an optional sign, one of the words inf, infinity and nan or consists of digits of base 16, one point at most, underscores, signs and the letters x and p; a sign changes nothing but for nan.", "quantifier": "all numbers of RFC 8259 (exponent below 100000, or text of at most 9000 bytes), all documents and paths", "why_tests_cant": "Digits, fractions and exponents are unbounded, and the limit falls between texts that differ in any later digit.", "anchors": ["utils.go:isFloat", "inter_type.go:GetType"]}
{"id": "C115", "title": "What a parser keeps is what it was given", "statement": "After Parse or any edit, every node's value is empty, a part of the slice given to that call, a part of the parser's new text, or the value a node had before; a label is a string of its own, a part of the slice given, or one from before. So a program that writes only to arrays which it made itself and never gave to a parser gets the answers of parsers that own their bytes, whatever it gave, got and wrote before.", "quantifier": "all programs of calls and writes, any spare capacity, any growth policy of append", "why_tests_cant": "Which arrays are reachable from a parser depends on the whole history of calls; programs are unbounded.", "anchors": ["parse_utils.go:Parse", "parse_core.go:pCore", "parse_set.go:Set", "parse_set.go:SetKey", "parse_add.go:AddKeyValue", "parse_add.go:Add", "parse_add.go:Insert", "parse_delete.go:Delete"]}
{"id": "C116", "title": "UTF-8 in, UTF-8 out", "statement": "If the text, the keys and the values handed to the package are UTF-8, then everything it hands back is UTF-8: texts after a change, values, keys, elements, maps, the arguments of callbacks, flattened and indented texts, new objects and arrays, and a parser's text, values and tree after any calls. No character is cut, also when the text is not JSON and the call fails.", "quantifier": "all UTF-8 texts (JSON or not), all paths, all UTF-8 keys and values, all sequences of parser calls", "why_tests_cant": "Every position where the code cuts a text must fall between characters, for every text, including texts that are not JSON and paths that are not UTF-8.", "anchors": ["inter_core.go:core", "inter_get.go:Get", "inter_get.go:GetStringArray", "inter_get.go:GetKeysValues", "inter_get.go:GetMap", "inter_set.go:Set", "inter_set.go:SetKey", "inter_set.go:Store", "inter_add.go:Add", "inter_add.go:AddKeyValue", "inter_add.go:Insert", "inter_delete.go:Delete", "inter_iter.go:IterateArray", "inter_iter.go:IterateKeyValue", "walk.go:Walk", "others.go:Flatten", "others.go:Indent", "make.go:MakeJson", "parse_core.go:pCore", "parse_set.go:Set", "parse_utils.go:createTree"]}
{"id": "C117", "title": "GetNew of UTF-8", "statement": "Parser.GetNew gives UTF-8 whenever everything the parser was given is UTF-8.", "quantifier": "all UTF-8 texts, all paths, all sequences of parser calls given UTF-8", "why_tests_cant": "The closing byte is computed by adding two to the first byte of whatever value the node has at the time, which any earlier call may have set.", "anchors": ["parse_get.go:GetNew", "parse_utils.go:dive", "parse_set.go:Set"]}
{"id": "C118", "title": "Calls of the text one after another", "statement": "For the source text of the package run by the interpreter: SetBool, SetFloat and SetString followed by the matching getter return the value; a second Set replaces the first; Sets at diverging paths commute; Delete keeps or shifts the other entries, undoes Add, AddKeyValue and Insert, and commutes with Set elsewhere; SetKey can be taken back; Get and Set at a joined path go through the part; arrays made of integers, booleans and strings are read back. Floats assume that strconv reads back what it writes; strings must not look like a container; Insert must meet the condition of C23.", "quantifier": "all well-formed documents, all paths that lead to a value, all values", "why_tests_cant": "Two or three calls on any document, any path and any value; the text of each function is run without a bound on its loops.", "anchors": ["inter_set.go:SetBool", "inter_set.go:SetFloat", "inter_set.go:SetString", "inter_set.go:Set", "inter_set.go:SetKey", "inter_get.go:Get", "inter_get.go:GetString", "inter_add.go:Add", "inter_add.go:AddKeyValue", "inter_add.go:Insert", "inter_delete.go:Delete", "make.go:MakeArrayInt"]}
{"id": "C119", "title": "What the readers and builders of the text say", "statement": "For the source text of the package run by the interpreter: the typed getters, GetType, IsArray, IsObject, IsValue, IsEmpty, GetValues, GetKeysValues and the array getters describe the value at the path; Add, Insert and AddKeyValue refuse the wrong kind of value and change nothing; Indent changes only whitespace; the builders write the array or object they are given.", "quantifier": "all well-formed documents, all paths that lead to a value, all arguments of the builders", "why_tests_cant": "Every document and every path, with the loops of the text run without a bound.", "anchors": ["inter_get.go:GetString", "inter_get.go:GetInt", "inter_get.go:GetKeysValues", "inter_get.go:GetStringArray", "inter_add.go:Add", "inter_add.go:Insert", "others.go:Indent", "make.go:MakeJsonString", "make.go:MakeArrayFloat"]}
{"id": "C120", "title": "RFC 8259 texts stay RFC 8259 texts, for the text", "statement": "For the source text of the package run by the interpreter: Set, Delete, Add, AddKeyValue, SetKey, Insert, Store, SetString and AddString turn an RFC 8259 text into an RFC 8259 text, given values and keys of the RFC.", "quantifier": "all RFC 8259 texts, all paths that lead to a value, all values and keys of the RFC", "why_tests_cant": "The RFC grammar is recursive and the edit may be at any depth.", "anchors": ["inter_set.go:Set", "inter_set.go:SetKey", "inter_set.go:SetString", "inter_set.go:Store", "inter_add.go:Add", "inter_add.go:AddString", "inter_add.go:AddKeyValue", "inter_add.go:Insert", "inter_delete.go:Delete"]}
{"id": "C121", "title": "UTF-8 in, UTF-8 out of the text", "statement": "For the source text of the package run by the interpreter: if the text, keys and values are UTF-8, so is every text, list of texts and map that the readers, the functions that change a text, the methods of JO, Flatten, Indent, the string builders and GetAll, GetMap and GetAllMap return, and every argument of the callbacks of IterateArray, IterateKeyValue and Walk. The texts inside errors and the parser are not part of it.", "quantifier": "all UTF-8 texts (JSON or not), all paths, all UTF-8 keys and values", "why_tests_cant": "Every position where the code cuts a text must fall between characters, for every text.", "anchors": ["inter_get.go:Get", "inter_get.go:GetMap", "inter_set.go:Set", "inter_set.go:SetKey", "inter_set.go:Store", "inter_add.go:Insert", "inter_delete.go:Delete", "inter_iter.go:IterateArray", "inter_iter.go:IterateKeyValue", "walk.go:Walk", "others.go:Flatten", "others.go:Indent", "make.go:MakeJsonString"]}
{"id": "C122", "title": "UTF-8 in, UTF-8 out of the parsers of the text", "statement": "A program that calls the methods of Parser in the source text, typed ones and drawings included but not GetNew, and gives them UTF-8 texts, keys and values, with any paths, gets UTF-8 in every answer, and every parser it leaves holds a UTF-8 text. Such a program always has a run. With GetNew it is false (C117).", "quantifier": "all programs on any number of parsers, all UTF-8 texts (JSON or not), all paths", "why_tests_cant": "Programs of any length on shared node memory; a character could be cut by any of the calls and show up many calls later.", "anchors": ["parse_core.go:pCore", "parse_set.go:Set", "parse_set.go:SetString", "parse_add.go:Add", "parse_add.go:AddKeyValue", "parse_add.go:Insert", "parse_delete.go:Delete", "parse_get.go:Get", "parse_get.go:GetStringArray", "parse_utils.go:createTree"]}
{"id": "C123", "title": "More about the parsers of the text", "statement": "For parsers that any program on the source text holds: Insert and the typed mutators leave the text that the function of the same name makes of the text the parser had; Parse panics on exactly the texts of C92; GetNew gives the value up to whitespace; AddKeyValue refuses a key that is there and leaves the text.", "quantifier": "all programs before the call, all paths, values and keys; all byte texts for Parse", "why_tests_cant": "The parser may be the result of any sequence of calls, and shares node memory with other parsers.", "anchors": ["parse_add.go:Insert", "parse_add.go:AddKeyValue", "parse_add.go:AddInt", "parse_add.go:InsertString", "parse_set.go:SetInt", "parse_set.go:SetString", "parse_get.go:GetNew", "parse_core.go:pCore"]}
{"id": "C124", "title": "The text on arbitrary bytes", "statement": "For the source text, on any bytes: Get and Set address the same bytes or give the same error; a mutator that succeeds changes one place; mutators do not panic if the text has a settled end; a BadJSON error names a position of the text; GetKeys and GetValues panic on exactly the texts of C91; IterateArray does not panic. On documents: what follows the document does not matter, Length follows the mutations, Store is an upsert.", "quantifier": "all byte texts, paths, keys, values, indices and callbacks", "why_tests_cant": "The texts are arbitrary bytes, not only JSON, and the statement is about the source text as it runs.", "anchors": ["inter_get.go:Get", "inter_get.go:GetKeys", "inter_set.go:Set", "inter_set.go:SetKey", "inter_set.go:Store", "inter_add.go:Add", "inter_add.go:AddKeyValue", "inter_add.go:Insert", "inter_delete.go:Delete", "inter_iter.go:IterateArray", "others.go:Length"]}
{"id": "C125", "title": "Mutations do not depend on formatting", "statement": "If two JSON documents have the same tokens and differ only in whitespace between them, then Set, Delete, Add, Insert, AddKeyValue and SetKey with the same path (and values with the same tokens) succeed on both and give documents with the same tokens, so Flatten gives one text for both. Set of a flattened value in a flattened document gives the flattened result.", "quantifier": "all pairs of documents with the same tokens, all paths into them, all values, keys and indices", "why_tests_cant": "A test compares a few layouts of a few documents; the code searches bytes and compares positions, so an effect of whitespace may show only in one layout.", "anchors": ["inter_set.go:Set", "inter_set.go:SetKey", "inter_add.go:Add", "inter_add.go:AddKeyValue", "inter_add.go:Insert", "inter_delete.go:Delete", "others.go:Flatten"]}
{"id": "C126", "title": "Key lists and elements follow the mutations", "statement": "What GetKeys and IterateArray list before a mutation that succeeds determines what they list after it. Keys: AddKeyValue appends the new key, which was not in the list; SetKey replaces the first occurrence of the old key by the new one; Delete takes out the first occurrence; Set below the object leaves the list. Elements: Add appends the value, Delete takes out the element of the index, Set replaces it, Insert puts the value before it. The same holds for the source text.", "quantifier": "all documents, all objects and arrays in them, all keys, values and indices", "why_tests_cant": "The two readers scan the mutated bytes anew; a test shows agreement for a few layouts and sizes, not after every mutation of every container.", "anchors": ["inter_get.go:GetKeys", "inter_iter.go:IterateArray", "inter_set.go:Set", "inter_set.go:SetKey", "inter_add.go:Add", "inter_add.go:AddKeyValue", "inter_add.go:Insert", "inter_delete.go:Delete"]}
{"id": "C127", "title": "A session of mutations does to the text what it does to the value", "statement": "Take the text of a JSON document and make any number of calls of Set, Delete, Add, Insert, AddKeyValue and SetKey one after another, each on the text the former call left, each naming an entry or a container that the value then has, and Insert never before the last of several elements (C23). Then the text is again a JSON document, and its value is the value of the first document with the same edits made on it, refused calls left out. Only AddKeyValue and SetKey refuse, and a refused call changes nothing. Afterwards Flatten gives the text of that value, Get a text that shows the value at the path, GetKeys the keys of an object that is not empty in order, IterateArray the elements of an array that is not empty in order, and Walk, if no container is empty and keys are distinct, the scalars with their paths. The same holds for the source text, where each call may also be the method of JO or a typed function (SetInt, AddBool, ...) that writes the value. If the first text ends with a bracket, no call panics.", "quantifier": "for all well formed documents, all lengths and orders of sessions, all paths, keys and values, all layouts", "why_tests_cant": "The sessions are of every length and every mix of calls, on every document with every layout; a test runs a few short ones.", "anchors": ["inter_set.go:Set", "inter_delete.go:Delete", "inter_add.go:Add", "inter_add.go:Insert", "inter_add.go:AddKeyValue", "inter_set.go:SetKey", "others.go:Flatten", "inter_get.go:Get", "inter_get.go:GetKeys", "inter_iter.go:IterateArray", "walk.go:Walk", "inter_set.go:SetInt", "inter_add.go:AddBool", "jin_object_set.go:JO.Set"]}
{"id": "C128", "title": "Floating point numbers survive", "statement": "For every 64-bit floating point number, and the infinities: SetFloat at a path that exists and then GetFloat return the same 64 bits, and so do AddFloat, AddKeyValueFloat and InsertFloat and then GetFloat at the new entry, wherever those calls succeed and leave JSON. What is written for a number is a number of RFC 8259 without exponent, and is ASCII; of the numbers without exponent that are read as the same 64 bits it has the fewest digits behind the point, ends in the most zeros if it has none there, and is the nearest of those that agree with it in this. So SetFloat and AddFloat in a text of RFC 8259 leave such a text. GetFloat of a number of RFC 8259 returns the nearest 64-bit number, the even one of two, with the sign, and an error if the number is too large. For NaN and the infinities SetFloat reports no error and leaves a text that is not JSON.", "quantifier": "for all 2^64 floating point bit patterns, all well formed documents, all paths, all numbers with an exponent below 100000", "why_tests_cant": "There are 2^64 numbers to write and infinitely many texts to read; rounding errors show only on rare ones.", "anchors": ["inter_set.go:SetFloat", "inter_get.go:GetFloat", "inter_add.go:AddFloat", "inter_add.go:AddKeyValueFloat", "inter_add.go:InsertFloat", "inter_type.go:GetType"]}
{"id": "C129", "title": "A list built element by element is read back", "statement": "AddInt of one integer after the other to an array succeeds each time, and then GetIntArray returns the integers that were there and the new ones, in order; the same for AddFloat and GetFloatArray (the same 64 bits, for every number and the infinities), AddBool and GetBoolArray, AddString and GetStringArray (strings that are string content and not in brackets or braces).", "quantifier": "all well formed documents, all paths to an array, all lists of values of any length", "why_tests_cant": "All lists, of any length, and all documents around them; each call works on the text the call before has left.", "anchors": ["inter_add.go:AddInt", "inter_add.go:AddFloat", "inter_add.go:AddBool", "inter_add.go:AddString", "inter_get.go:GetIntArray", "inter_get.go:GetFloatArray", "inter_get.go:GetBoolArray", "inter_get.go:GetStringArray"]}
{"id": "C130", "title": "Building entry by entry gives the text of make.go", "statement": "AddInt of one integer after the other to [] leaves the text that MakeArrayInt writes for the list; the same for AddBool and MakeArrayBool, and for AddString and MakeArrayString with strings that are string content and not in brackets or braces. AddKeyValueString of one key and value after the other to {} leaves the text that MakeJsonString writes, for keys that are not empty, are string content and all different, and such values. No call reports an error.", "quantifier": "all non-empty lists of values, and of keys, of any length", "why_tests_cant": "Two separate implementations have to agree on lists of any length and on every value.", "anchors": ["inter_add.go:AddInt", "inter_add.go:AddBool", "inter_add.go:AddString", "inter_add.go:AddKeyValueString", "make.go:MakeArrayInt", "make.go:MakeArrayBool", "make.go:MakeArrayString", "make.go:MakeJsonString"]}
{"id": "C131", "title": "Every JSON value can be built with small additions", "statement": "For every array or object whose objects have distinct keys there are calls of Add and AddKeyValue, each of one scalar or one empty container, that turn [] or {} into its text without whitespace; no call reports an error. The same can be done inside a document at an empty container that is followed in its container only by scalars and containers of at most one entry. Every document that is an array or object can be emptied by calls of Delete, none of which reports an error, so that Flatten gives [] or {}; hence every document can be made of every other of the same kind.", "quantifier": "all JSON values of any depth and size with distinct keys (arrays no longer than 2^63-1), with any bytes in keys and strings, also brackets, quotes and keys that occur elsewhere", "why_tests_cant": "It is about all values, and AddKeyValue can refuse a key that occurs in later text (C21), so that an order of the calls has to exist in which that never happens.", "anchors": ["inter_add.go:Add", "inter_add.go:AddKeyValue", "inter_delete.go:Delete", "others.go:Flatten"]}
{"id": "C132", "title": "The readers of a container agree", "statement": "For every object with distinct keys, the keys of GetKeys and the values of GetValues, one of each for every member, are the two lists of GetKeysValues, the values that GetAll and GetAllMap return for these keys, and the pairs that IterateKeyValue hands out in this order, and Length is their number. For every array, the elements that IterateArray hands out, one for every element, are what Get returns for their indices and what GetStringArray returns, and Length is their number.", "quantifier": "all documents and paths, all non-empty objects and arrays in them, of any size and with any whitespace (proved where no value of one byte is followed by whitespace, and at the root of an array for texts without whitespace around it that are not one element of one byte; shown to fail otherwise)", "why_tests_cant": "Separately written scanners have to cut every text in the same places.", "anchors": ["inter_get.go:Get", "inter_get.go:GetKeys", "inter_get.go:GetValues", "inter_get.go:GetKeysValues", "inter_get.go:GetAll", "inter_get.go:GetAllMap", "inter_get.go:GetStringArray", "inter_iter.go:IterateArray", "inter_iter.go:IterateKeyValue", "others.go:Length"]}
{"id": "C133", "title": "Mutations in separate parts of a document commute", "statement": "Set, Delete, Add, Insert, AddKeyValue and SetKey on two values on diverging paths, neither inside the other, leave the same text byte for byte in either order, if no call reports an error; Set, Delete, Add and Insert that apply report none. The same holds of whole sessions: the same calls inside one value, in the same order, and the same calls inside the other, in the same order, leave the same text however they are interleaved.", "quantifier": "all documents with any whitespace, all pairs of diverging paths, all pairs of mutations, all sessions of any length and all interleavings of them", "why_tests_cant": "The number of interleavings grows exponentially with the length, and every call searches the whole text from the start.", "anchors": ["inter_set.go:Set", "inter_set.go:SetKey", "inter_delete.go:Delete", "inter_add.go:Add", "inter_add.go:Insert", "inter_add.go:AddKeyValue"]}
{"id": "C134", "title": "A part of a document is changed as a document of its own", "statement": "To run a sequence of Set, Delete, Add, Insert, AddKeyValue and SetKey on the container at a path of a document gives, byte for byte, what one gets by taking the container out with Get, running the same calls on it with the rest of the paths, and putting the result back with Set, if no call reports an error; Set, Delete, Add and Insert that apply report none.", "quantifier": "all documents with any whitespace, all paths to a container, all sequences of calls of any length", "why_tests_cant": "Documents, paths and sequences are unbounded, and in the document every call searches text that is not there when the part is taken out.", "anchors": ["inter_set.go:Set", "inter_set.go:SetKey", "inter_delete.go:Delete", "inter_add.go:Add", "inter_add.go:Insert", "inter_add.go:AddKeyValue", "inter_get.go:Get"]}
{"id": "C135", "title": "Set and Delete leave nothing of what was done inside a value", "statement": "After any sequence of successful mutations inside the value at a path, Set or Delete at this path gives the very result, byte for byte, that it gives on the document before them.", "quantifier": "all documents with any whitespace, all non-empty paths that resolve, all sequences of calls inside the value, all new values", "why_tests_cant": "Documents, paths and sequences of calls are unbounded.", "anchors": ["inter_set.go:Set", "inter_set.go:SetKey", "inter_delete.go:Delete", "inter_add.go:Add", "inter_add.go:Insert", "inter_add.go:AddKeyValue"]}
{"id": "C136", "title": "The text of a parser follows its calls, whatever its tree", "statement": "After any sequence of Set, Delete, Add, Insert, AddKeyValue and SetKey on a parser that apply to the document and report no error, JSON() is byte for byte what the functions of the same names make of the parsed text, so a document with the value that the calls make of the value, even when the tree is out of step with the text.", "quantifier": "all documents, all parsers in any state of their tree, all sequences of calls of any length", "why_tests_cant": "The tree gets out of step in unboundedly many ways, and the calls consult it before they change the text.", "anchors": ["parse_set.go:Parser.Set", "parse_set.go:Parser.SetKey", "parse_delete.go:Parser.Delete", "parse_add.go:Parser.Add", "parse_add.go:Parser.AddKeyValue", "parse_add.go:Parser.Insert", "parse_utils.go:Parse"]}
{"id": "C137", "title": "Changes inside an entry commute with changes of the entries of its container", "statement": "For a document and a mutation inside an element of an array or a member of an object (Set, Delete, Add, Insert, AddKeyValue or SetKey that applies to the document), doing it before or after an Add or Insert into that array, an AddKeyValue to that object, a SetKey in it or a Delete of another entry of that container gives the same text, byte for byte, when no call reports an error; an element behind a deleted or inserted one is addressed by its new index, the renamed member by its new key. If the mutation is a Set, Delete, Add or Insert, it and the Add, Insert or Delete report no error in either order. Insert at the last of several elements is left out.", "quantifier": "all documents with any whitespace, all containers at any depth, all entries, all mutations inside them at any depth", "why_tests_cant": "Pairs of changes in one container over all documents and positions are unbounded, and adding or deleting an entry moves the bytes of its neighbours and drops or keeps the whitespace around them.", "anchors": ["inter_add.go:Add", "inter_add.go:AddKeyValue", "inter_add.go:Insert", "inter_delete.go:Delete", "inter_set.go:Set", "inter_set.go:SetKey"]}
{"id": "C138", "title": "Changes of the entries of one container commute up to white space", "statement": "For a container in a document, two sequences of mutations below it that apply and make the same value of it leave texts that Flatten makes equal. In particular Delete of two elements (with the later index lowered when the earlier element goes first), Delete of two members, Add and Delete of an element, and AddKeyValue and Delete of a member may be exchanged; the two Deletes of elements report no error in either order.", "quantifier": "all documents with any whitespace, all containers at any depth, all sequences of mutations of any length", "why_tests_cant": "The white space around a deleted entry goes to a neighbour, which may be deleted next; positions, lengths and white space are unbounded.", "anchors": ["inter_delete.go:Delete", "inter_add.go:Add", "inter_add.go:AddKeyValue", "inter_set.go:Set", "others.go:Flatten"]}
{"id": "C139", "title": "The order of calls on a parser in separate parts does not matter", "statement": "Calls of Set, Delete, Add, Insert, AddKeyValue and SetKey on a parser inside two values on diverging paths, that apply to the document and report no error, leave the same JSON() however the calls inside one value are interleaved with those inside the other; and two sequences of calls below one path that make the same of the value there leave texts that Flatten makes equal.", "quantifier": "all documents, all parsers in any state of their tree, all pairs of diverging paths, all sequences of calls of any length and all interleavings of them", "why_tests_cant": "The number of interleavings grows exponentially with the length, and the tree of the parser differs from one to the next.", "anchors": ["parse_set.go:Parser.Set", "parse_set.go:Parser.SetKey", "parse_delete.go:Parser.Delete", "parse_add.go:Parser.Add", "parse_add.go:Parser.AddKeyValue", "parse_add.go:Parser.Insert", "others.go:Flatten"]}
{"id": "C140", "title": "Parser.AddKeyValue writes null for a nil value", "statement": "Parser.AddKeyValue with a nil value, like AddKeyValue, adds a member with the value null: if it reports no error, JSON() is what AddKeyValue makes of the text with nil, Get of the member gives null, and no call panics.", "quantifier": "all parsers in any state, all keys, all paths", "why_tests_cant": "The behaviour depends on the length of the key, the depth of the path and the state of the tree, all unbounded.", "anchors": ["parse_add.go:Parser.AddKeyValue", "inter_add.go:AddKeyValue"]}
{"id": "C141", "title": "A path that leads nowhere is refused alike by every function", "statement": "If Get reports an error for a non-empty path, every function that takes a path reports the same error for it: the typed and array getters, IsEmpty, Length, GetMap, GetKeys, GetValues, GetKeysValues, the type tests, GetType, the iterators, and the mutators, which return the text they were given. If the error is that a key is missing, an index is out of range or a key stands where an index is needed, every longer path is refused with the same error, and so are Store, GetAll, GetAllMap and SetKey below it.", "quantifier": "all byte texts (JSON or not), all non-empty paths, all continuations of the path, all values, keys, indices and callbacks", "why_tests_cant": "Texts and paths are unbounded and need not be JSON; the statement compares two runs of the path walker on paths of different lengths.", "anchors": ["inter_core.go:core", "inter_get.go:Get", "inter_get.go:GetKeys", "inter_set.go:Set", "inter_set.go:SetKey", "inter_set.go:Store", "inter_add.go:Add", "inter_add.go:AddKeyValue", "inter_add.go:Insert", "inter_delete.go:Delete", "inter_iter.go:IterateArray", "inter_iter.go:IterateKeyValue", "inter_type.go:GetType", "others.go:Length"]}
{"id": "C142", "title": "Arrays of floats survive", "statement": "GetFloatArray(MakeArrayFloat(xs)) = xs for every non-empty list of finite 64-bit floating point numbers, bit for bit; and GetFloatArray reads the same 64 bits from MakeArrayBytes of the texts of the numbers.", "quantifier": "all non-empty lists of finite floating point numbers", "why_tests_cant": "All lists of all lengths, and 2^64 numbers.", "anchors": ["make.go:MakeArrayFloat", "make.go:MakeArrayBytes", "inter_get.go:GetFloatArray", "inter_get.go:GetFloat"]}
{"id": "C143", "title": "A successful call brings the containers around its place up to date", "statement": "After Set, SetKey, Delete, AddKeyValue, Add or Insert on a parser that reports no error, Get of the parser gives, for every object or array of the new text on the way to the place of the call (for AddKeyValue, Add and Insert also at the place), exactly that object or array, even if the tree was out of step with the text before.", "quantifier": "all parser states, texts, paths and values", "why_tests_cant": "The states include all trees and texts that do not fit each other.", "anchors": ["parse_set.go:Parser.Set", "parse_set.go:Parser.SetKey", "parse_delete.go:Parser.Delete", "parse_add.go:Parser.AddKeyValue", "parse_add.go:Parser.Add", "parse_add.go:Parser.Insert", "parse_get.go:Parser.Get"]}
{"id": "C144", "title": "A call on a parser leaves Get elsewhere as it was", "statement": "Whatever Set, SetKey, Delete, AddKeyValue, Add or Insert of a parser reports, Get of the parser gives the value or error that it gave before at every path such that neither path is a beginning of the other (for SetKey: and that does not lead through the new key); after AddKeyValue and Add also every value that was there below the place.", "quantifier": "all parser states, calls, outcomes and paths", "why_tests_cant": "All states, including trees that do not fit their text.", "anchors": ["parse_set.go:Parser.Set", "parse_set.go:Parser.SetKey", "parse_delete.go:Parser.Delete", "parse_add.go:Parser.AddKeyValue", "parse_add.go:Parser.Add", "parse_add.go:Parser.Insert", "parse_get.go:Parser.Get"]}
{"id": "C145", "title": "What lies inside an object or array that a parser was given can be read", "statement": "After Set, AddKeyValue, Add or Insert of a parser with an object or array reports success, Get of the parser gives at the place, and at every path below the place, what Get of a parser of the given value gives there.", "quantifier": "all parser states, well-formed objects and arrays, places and paths below them", "why_tests_cant": "All values, all depths and all states; a test that reads only the value itself does not see what is below it.", "anchors": ["parse_set.go:Parser.Set", "parse_add.go:Parser.AddKeyValue", "parse_add.go:Parser.Add", "parse_add.go:Parser.Insert", "parse_get.go:Parser.Get", "parse_utils.go:Parse"]}
{"id": "C146", "title": "Parser.SetKey refuses a key that is taken and a path that leads nowhere", "statement": "Parser.SetKey with a key under which Get of the parser finds a value beside the one to be renamed reports that the key exists already; at a path where Get reports an error it reports that error; without a path or a key it reports a null path or key. Each time the text of the parser and what Get gives at every path stay as they were.", "quantifier": "all parser states, paths and keys", "why_tests_cant": "All states of the tree, including those that do not fit the text.", "anchors": ["parse_set.go:Parser.SetKey", "parse_get.go:Parser.Get"]}
{"id": "C147", "title": "After Delete a parser finds nothing at the place, after SetKey it finds everything under the new key", "statement": "After Delete of a place that a parser has, whatever it reports, Get fails at the place and at every path below it. After a successful SetKey, Get gives at the new key and at every path below it the value or error that it gave at the old key.", "quantifier": "all parser states, places, keys and paths below the place", "why_tests_cant": "All states of the tree, including those that do not fit the text, and all depths.", "anchors": ["parse_delete.go:Parser.Delete", "parse_set.go:Parser.SetKey", "parse_get.go:Parser.Get"]}
{"id": "C148", "title": "A scalar that Parser.AddKeyValue put into a parser is found under its key", "statement": "After Parser.AddKeyValue of a scalar with a key that the parser does not know at that place reports success, Get gives the content of the scalar at the key and reports an error at every path below it.", "quantifier": "all parser states, places, keys and well-formed scalars", "why_tests_cant": "All states of the tree, including those that do not fit the text, and all values.", "anchors": ["parse_add.go:Parser.AddKeyValue", "parse_get.go:Parser.Get"]}
