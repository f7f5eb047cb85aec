{"claims": [
{"property": "C01", "status": "proved", "theorems": ["Jin.C01_get_exact", "Jin.C01_get_root"], "note": ""},
{"property": "C02", "status": "proved", "theorems": ["Jin.C02_get_format_insensitive"], "note": ""},
{"property": "C03", "status": "partial", "theorems": ["Jin.C03_missing_key_partial", "Jin.C03_fails", "Jin.C03_fails_empty", "Jin.C03_fails_root"], "note": "False in general (C03_fails, C03_fails_empty, C03_fails_root): the key search runs into later text. Proved where Doc.clear holds: the surroundings are plain enough (Json.missOk), or the quoted key does not occur in the text from the last value of the object on and is not the beginning of the document."},
{"property": "C04", "status": "proved", "theorems": ["Jin.C04_index_errors"], "note": ""},
{"property": "C05", "status": "proved", "theorems": ["Jin.C05_getString", "Jin.C05_getInt", "Jin.C05_getFloat", "Jin.C05_getBool", "Jin.C05_errors"], "note": "ParseFloat is uninterpreted."},
{"property": "C06", "status": "proved", "theorems": ["Jin.C06_get_no_panic", "Jin.C06_get_settled", "Jin.C06_settled_sharp", "Jin.C06_typed_no_panic"], "note": ""},
{"property": "C07", "status": "proved", "theorems": ["Jin.C07_set_exact"], "note": ""},
{"property": "C08", "status": "proved", "theorems": ["Jin.C08_get_after_set"], "note": ""},
{"property": "C09", "status": "proved", "theorems": ["Jin.C09_set_frame"], "note": ""},
{"property": "C10", "status": "proved", "theorems": ["Jin.C10_setInt_getInt"], "note": ""},
{"property": "C100", "status": "partial", "theorems": ["Jin.Go.C100_get", "Jin.Go.C100_missing_partial", "Jin.Go.C100_set_get", "Jin.Go.C100_int", "Jin.Go.C100_delete", "Jin.Go.C100_add", "Jin.Go.C100_addKeyValue_partial", "Jin.Go.C100_addKeyValue_exists", "Jin.Go.C100_insert_partial", "Jin.Go.C100_setKey_partial", "Jin.Go.C100_get_no_panic", "Jin.Go.C100_flatten", "Jin.Go.C100_keys_length_partial", "Jin.Go.C100_insert_iff"], "note": "Partial where the property of the model is (C03, C21, C23, C24, C32, C36); the other theorems are full."},
{"property": "C101", "status": "partial", "theorems": ["Jin.Go.C101_iterateArray", "Jin.Go.C101_iterateKeyValue_partial"], "note": "IterateArray in full; IterateKeyValue in the exact form of C31, which is false as stated."},
{"property": "C102", "status": "proved", "theorems": ["Jin.C102_path_short", "Jin.C102_walk_ends"], "note": "Over all bytes."},
{"property": "C103", "status": "proved", "theorems": ["Jin.Go.text_JO_Add", "Jin.Go.text_JO_AddBool", "Jin.Go.text_JO_AddFloat", "Jin.Go.text_JO_AddInt", "Jin.Go.text_JO_AddKeyValue", "Jin.Go.text_JO_AddKeyValueBool", "Jin.Go.text_JO_AddKeyValueFloat", "Jin.Go.text_JO_AddKeyValueInt", "Jin.Go.text_JO_AddKeyValueString", "Jin.Go.text_JO_AddString", "Jin.Go.text_JO_Delete", "Jin.Go.text_JO_Get", "Jin.Go.text_JO_GetAll", "Jin.Go.text_JO_GetBool", "Jin.Go.text_JO_GetBoolArray", "Jin.Go.text_JO_GetFloat", "Jin.Go.text_JO_GetFloatArray", "Jin.Go.text_JO_GetInt", "Jin.Go.text_JO_GetIntArray", "Jin.Go.text_JO_GetKeys", "Jin.Go.text_JO_GetKeysValues", "Jin.Go.text_JO_GetString", "Jin.Go.text_JO_GetStringArray", "Jin.Go.text_JO_GetType", "Jin.Go.text_JO_GetValues", "Jin.Go.text_JO_Insert", "Jin.Go.text_JO_InsertBool", "Jin.Go.text_JO_InsertFloat", "Jin.Go.text_JO_InsertInt", "Jin.Go.text_JO_InsertString", "Jin.Go.text_JO_IsArray", "Jin.Go.text_JO_IsEmpty", "Jin.Go.text_JO_IsObject", "Jin.Go.text_JO_IsValue", "Jin.Go.text_JO_JSON", "Jin.Go.text_JO_Set", "Jin.Go.text_JO_SetBool", "Jin.Go.text_JO_SetFloat", "Jin.Go.text_JO_SetInt", "Jin.Go.text_JO_SetKey", "Jin.Go.text_JO_SetString", "Jin.Go.text_JO_Store", "Jin.Go.text_JO_StoreBool", "Jin.Go.text_JO_StoreFloat", "Jin.Go.text_JO_StoreInt", "Jin.Go.text_JO_StoreString", "Jin.Go.text_JO_String", "Jin.Go.text_JO_step", "Jin.Go.text_New", "Jin.Go.text_NewJSON"], "note": "text_JO_step covers the 27 mutators; the readers and constructors have a theorem each. GetMap, GetAllMap, the iterators and Walk are in C104."},
{"property": "C104", "status": "proved", "theorems": ["Jin.Go.text_walk", "Jin.Go.text_Walk", "Jin.Go.text_JO_Walk", "Jin.Go.text_Scheme_MutateJson", "Jin.Go.text_Scheme_MutateJsonAbs", "Jin.Go.text_MakeScheme", "Jin.Go.text_Scheme_MakeJson", "Jin.Go.text_Scheme_MakeJsonString", "Jin.Go.text_Scheme_Add", "Jin.Go.text_Scheme_Remove", "Jin.Go.text_Scheme_Save", "Jin.Go.text_Scheme_Restore", "Jin.Go.text_Scheme_GetOriginalKeys", "Jin.Go.text_Scheme_GetCurrentKeys", "Jin.Go.text_Scheme_Check", "Jin.Go.text_Scheme_CheckAbs", "Jin.Go.text_GetMap", "Jin.Go.text_GetAllMap", "Jin.Go.text_JO_GetMap", "Jin.Go.text_JO_GetAllMap", "Jin.Go.text_MakeArray", "Jin.Go.text_MakeJson", "Jin.Go.text_MakeJsonWithMap", "Jin.Go.text_IterateArray", "Jin.Go.text_IterateKeyValue", "Jin.Go.text_JO_IterateArray", "Jin.Go.text_JO_IterateKeyValue", "Jin.Go.text_MakeScheme_none"], "note": "Every function in full; MakeScheme() is the call with a nil slice (text_MakeScheme_none)"},
{"property": "C105", "status": "partial", "theorems": ["Jin.Go.C105_walk_ends", "Jin.Go.C105_walk", "Jin.Go.C105_getMap_partial", "Jin.Go.C105_getAllMap"], "note": "Walk and GetAllMap in full; GetMap where C34 holds."},
{"property": "C106", "status": "partial", "theorems": ["Jin.Go.C106_restore", "Jin.Go.C106_nodup", "Jin.Go.C106_check", "Jin.Go.C106_check_partial", "Jin.Go.C106_checkAbs_partial", "Jin.Go.C106_mutateAbs_partial"], "note": "Restore, distinct keys and Check in full; CheckAbs and MutateJsonAbs with the exceptions of C49 and C50."},
{"property": "C107", "status": "proved", "theorems": ["Jin.Go.C107_sessions", "Jin.Go.C107_trees", "Jin.Go.C107_reads"], "note": "The text of /repo as read into Lean; Tree and TreeFull left out (no fmt in the reader)."},
{"property": "C108", "status": "proved", "theorems": ["Jin.Go.C108_sessions", "Jin.Go.C108_reads"], "note": "Programs of any length on the text, with every method of Parser. Outside: nil arguments."},
{"property": "C109", "status": "partial", "theorems": ["Jin.Go.C109_parse", "Jin.Go.C109_get_after_set", "Jin.Go.C109_same_text", "Jin.Go.C109_in_step_partial"], "note": "The first three in full; in-step getters for parsers reached by the calls of PCall.ok (C64_fails shows other calls break it)."},
{"property": "C11", "status": "proved", "theorems": ["Jin.C11_setBool_getBool"], "note": ""},
{"property": "C110", "status": "proved", "theorems": ["Jin.Go.C110_errors", "Jin.Go.C110_in_place"], "note": "errors.go run from its text; C110_in_place shows that what stands for these functions in the other runs of the text makes the same messages and answers."},
{"property": "C111", "status": "partial", "theorems": ["Jin.Go.C111_parse", "Jin.Go.C111_tree_partial", "Jin.Go.C111_drawn_partial"], "note": "Tree and TreeFull right after Parse: proved in full. After further calls: Tree and TreeFull for the calls of PCall.ok, where an array of one scalar may be drawn without its element."},
{"property": "C112", "status": "proved", "theorems": ["Jin.C112_sessions", "Jin.C112_untouched", "Jin.C112_kept"], "note": "Over byte arrays and nodes; newVal not nil; a program ends at a panic"},
{"property": "C113", "status": "partial", "theorems": ["Jin.C113_fails", "Jin.C113_parse", "Jin.C113_set", "Jin.C113_text_partial"], "note": "Fails: nodes keep the slices given and labels are windows on the text (C113_fails). Proved: exactly what Parse keeps, the effect of reusing a value's buffer after Set at the top level, and that JSON() is never in an array given to an edit"},
{"property": "C114", "status": "proved", "theorems": ["Jin.C114_numbers", "Jin.C114_parts", "Jin.C114_alphabet", "Jin.C114_sign", "Jin.C39_number", "Jin.C39_number_text"], "note": "On the model of strconv.ParseFloat in Model/ParseFloat, written from its documentation"},
{"property": "C115", "status": "proved", "theorems": ["Jin.C115_kept_parse", "Jin.C115_kept_set", "Jin.C115_kept_setKey", "Jin.C115_kept_delete", "Jin.C115_kept_addKeyValue", "Jin.C115_kept_add", "Jin.C115_kept_insert", "Jin.C115_uses", "Jin.C115_careful"], "note": "Over byte arrays and nodes; newVal not nil; a program ends at a panic"},
{"property": "C116", "status": "proved", "theorems": ["Jin.C116_get", "Jin.C116_set", "Jin.C116_delete", "Jin.C116_add", "Jin.C116_addKeyValue", "Jin.C116_insert", "Jin.C116_setKey", "Jin.C116_store", "Jin.C116_arrays", "Jin.C116_members", "Jin.C116_iterateArray", "Jin.C116_iterateKeyValue", "Jin.C116_walk", "Jin.C116_flatten", "Jin.C116_indent", "Jin.C116_getAll", "Jin.C116_getAllMap", "Jin.C116_getMap", "Jin.C116_step", "Jin.C116_wide", "Jin.C116_make", "Jin.C116_makeFloat", "Jin.C116_scheme", "Jin.C116_parse", "Jin.C116_parserGet", "Jin.C116_tree", "Jin.C116_parserSet", "Jin.C116_parserSetKey", "Jin.C116_parserDelete", "Jin.C116_parserAddKeyValue", "Jin.C116_parserAdd", "Jin.C116_parserInsert", "Jin.C116_parser", "Jin.C116_stripQuotes"], "note": "Every function that returns texts or hands them to a callback; FormatFloat is assumed to give UTF-8, which C128_utf8 proves of the FormatFloat of Model/Float"},
{"property": "C117", "status": "partial", "theorems": ["Jin.C117_getNew_fails", "Jin.C117_getNew_partial"], "note": "The code violates it: after Set of a container to ~ the node keeps its children and GetNew closes with the byte 128 (C117_getNew_fails). Proved right after Parse, for every UTF-8 text and path"},
{"property": "C118", "status": "proved", "theorems": ["Jin.Go.C118_bool", "Jin.Go.C118_float", "Jin.Go.C118_string", "Jin.Go.C118_set_set", "Jin.Go.C118_sets_commute", "Jin.Go.C118_delete_shift", "Jin.Go.C118_delete_frame", "Jin.Go.C118_setKey_exists", "Jin.Go.C118_delete_undoes", "Jin.Go.C118_insert_undone", "Jin.Go.C118_setKey_back", "Jin.Go.C118_get_compose", "Jin.Go.C118_set_compose", "Jin.Go.C118_delete_set", "Jin.Go.C118_delete_set_element", "Jin.Go.C118_index_errors", "Jin.Go.C118_need_path", "Jin.Go.C118_ints", "Jin.Go.C118_bools", "Jin.Go.C118_strings"], "note": "Conditions as in the properties carried over: FormatFloat and ParseFloat are uninterpreted, their round trip is a hypothesis; Insert under the condition of C23, as stated."},
{"property": "C119", "status": "partial", "theorems": ["Jin.Go.C119_typed", "Jin.Go.C119_kind_partial", "Jin.Go.C119_type_partial", "Jin.Go.C119_members_partial", "Jin.Go.C119_empty_partial", "Jin.Go.C119_arrays_partial", "Jin.Go.C119_wrong_kind_partial", "Jin.Go.C119_indent_partial", "Jin.Go.C119_makeJson_partial", "Jin.Go.C119_make_empty_partial", "Jin.Go.C119_make_empty_fails", "Jin.Go.C119_bytes_nil", "Jin.Go.C119_floats_partial", "Jin.Go.C119_empty_text", "Jin.Go.C119_fails", "Jin.Go.C119_float_exact_partial"], "note": "What C33, C37, C38, C39, C41, C45, C46, C47, C61 and C74 miss is missing here too; IsObject says true for an array and IsEmpty for [5] (C119_fails), the builders given an empty slice write a lone bracket (C119_make_empty_fails)."},
{"property": "C12", "status": "proved", "theorems": ["Jin.C12_setFloat_getFloat"], "note": "FormatFloat/ParseFloat are uninterpreted; the round trip of the text is a hypothesis, as in the property."},
{"property": "C120", "status": "partial", "theorems": ["Jin.Go.C120_set", "Jin.Go.C120_delete", "Jin.Go.C120_add", "Jin.Go.C120_addKeyValue", "Jin.Go.C120_setKey", "Jin.Go.C120_insert_partial", "Jin.Go.C120_store_partial", "Jin.Go.C120_strings_partial", "Jin.Go.C120_fails"], "note": "Set, Delete, Add, AddKeyValue and SetKey in full; the full statement for Insert (C120_statement) is false (C120_fails); Store under the condition of C26, SetString and AddString under that of C60."},
{"property": "C121", "status": "proved", "theorems": ["Jin.Go.C121_readers", "Jin.Go.C121_mutators", "Jin.Go.C121_strings", "Jin.Go.C121_jo", "Jin.Go.C128_text_utf8", "Jin.Go.C121_maps", "Jin.Go.C121_format", "Jin.Go.C121_make", "Jin.Go.C121_iterate"], "note": "Texts inside errors and the parser are not part of the statement; for JO, FormatFloat is assumed to give UTF-8, and C128_text_utf8 is the same without the assumption."},
{"property": "C122", "status": "proved", "theorems": ["Jin.Go.C122_answers", "Jin.Go.C122_texts", "Jin.Go.C122_runs", "Jin.Go.C128_text_utf8", "Jin.Go.C122_getNew_fails"], "note": "GetNew is left out of the statement, C122_getNew_fails shows why; FormatFloat is assumed to give UTF-8, and C128_text_utf8 is the same without the assumption."},
{"property": "C123", "status": "partial", "theorems": ["Jin.Go.C123_typed_text_partial", "Jin.Go.C123_insert_text", "Jin.Go.C123_parse_panics", "Jin.Go.C123_getNew_partial", "Jin.Go.C123_refuse_partial"], "note": "Insert and the panics of Parse in full; the typed mutators on paths that are not empty and, for SetString, on texts that both quote (C69_fails); GetNew and AddKeyValue under the conditions of C66 and C89."},
{"property": "C124", "status": "partial", "theorems": ["Jin.Go.C124_get_set", "Jin.Go.C124_one_place", "Jin.Go.C124_delete_partial", "Jin.Go.C124_no_panic", "Jin.Go.C124_no_panic_partial", "Jin.Go.C124_fails", "Jin.Go.C124_position_readers", "Jin.Go.C124_position", "Jin.Go.C124_keys_panic", "Jin.Go.C124_keys_panic_path", "Jin.Go.C124_iterateArray", "Jin.Go.C124_after_partial", "Jin.Go.C124_after_fails", "Jin.Go.C124_length_partial", "Jin.Go.C124_store_partial", "Jin.Go.C124_store_fails"], "note": "Proved of the source text: C70, the settled-end cases of C72, C88, C90 and C91, and C71 except Delete. Partial because the code violates the rest: Delete and Insert panic on some texts with a settled end and Delete can lengthen a text that begins with a comma (C124_fails), a missing key is searched for after the document (C124_after_fails), and Store of a missing key may change another object (C124_store_fails)."},
{"property": "C125", "status": "partial", "theorems": ["Jin.C125_set", "Jin.C125_set_flatten", "Jin.C125_delete", "Jin.C125_add", "Jin.C125_insert_partial", "Jin.C125_addKeyValue_partial", "Jin.C125_setKey_partial", "Jin.C125_readers_partial", "Jin.C125_fails", "Jin.Go.C125_text", "Jin.Go.C125_text_partial", "Jin.Go.C125_text_fails", "Jin.C125_sessions", "Jin.C125_session_runs", "Jin.Go.C125_text_sessions", "Jin.Go.C125_text_session_runs"], "note": "Proved for Set, Delete and Add, in the model and for the source text. Partial because the code violates the rest: Insert before the last element depends on the whitespace in front of it, and AddKeyValue and SetKey may find a key that is not there because of a space after a colon (C125_fails). For these three it is proved with the hypotheses of C23, C21 and C24. C125_sessions: whole sessions in which the same calls are refused."},
{"property": "C126", "status": "partial", "theorems": ["Jin.C126_addKeyValue", "Jin.C126_delete_partial", "Jin.C126_setKey", "Jin.C126_set", "Jin.C126_add", "Jin.C126_elements_partial", "Jin.C126_fails", "Jin.Go.C126_text_keys", "Jin.Go.C126_text_delete_partial", "Jin.Go.C126_text_elements_partial", "Jin.Go.C126_text_fails"], "note": "Fails where the container becomes empty (GetKeys of {} is an error, IterateArray of a nested [] hands out an empty element) and for Insert before the last element after white space (C23). Proved for all other cases, for the model and for the text."},
{"property": "C127", "status": "proved", "theorems": ["Jin.C127_step", "Jin.C127_runs", "Jin.C127_session", "Jin.C127_read", "Jin.C127_walk", "Jin.C127_total", "Jin.Go.C127_text", "Jin.Go.C127_text_read", "Jin.Go.C127_text_walk", "Jin.Go.C127_text_total"], "note": "Sessions are lists of calls with the errors they gave. The calls name entries that exist, and Insert is not before the last of several elements (there C23 fails); Store is left out (C26 fails)."},
{"property": "C128", "status": "proved", "theorems": ["Jin.C128_back", "Jin.C128_number", "Jin.C128_no_exponent", "Jin.C128_plain", "Jin.C128_utf8", "Jin.C128_set", "Jin.C128_add", "Jin.C128_addKeyValue", "Jin.C128_insert", "Jin.C128_rfc", "Jin.C128_nearest", "Jin.C128_accepts", "Jin.C128_fails", "Jin.C128_makeArray_fails", "Jin.Go.C128_text_set", "Jin.Go.C128_text_add", "Jin.Go.C128_text_addKeyValue", "Jin.Go.C128_text_insert", "Jin.Go.C128_text_rfc", "Jin.Go.C128_text_nearest", "Jin.Go.C128_text_type", "Jin.Go.C128_text_utf8", "Jin.Go.C128_text_fails", "Jin.C128_shortest", "Jin.C128_accepts_plain", "Jin.Go.C128_text_string", "Jin.Go.C128_text_strings"], "note": "strconv as in Model/Float. NaN and the infinities are written as texts that are not JSON (C128_fails); MakeArrayFloat drops 12.5 and panics on 5 (C128_makeArray_fails, see C47)."},
{"property": "C129", "status": "proved", "theorems": ["Jin.C129_ints", "Jin.C129_floats", "Jin.C129_bools", "Jin.C129_strings", "Jin.Go.C129_text_ints", "Jin.Go.C129_text_floats", "Jin.Go.C129_text_bools", "Jin.Go.C129_text_strings"], "note": "Not for empty arrays: GetIntArray and GetBoolArray of [] panic (C61_empty)."},
{"property": "C13", "status": "proved", "theorems": ["Jin.C13_setString_getString"], "note": "Assumes of ParseFloat only that it accepts plain tokens."},
{"property": "C130", "status": "proved", "theorems": ["Jin.C130_arrays", "Jin.C130_objects", "Jin.Go.C130_text_arrays", "Jin.Go.C130_text_objects"], "note": "strconv as in Model/Float. MakeArrayFloat does not write every element (C47)."},
{"property": "C131", "status": "proved", "theorems": ["Jin.C131_build", "Jin.C131_inside", "Jin.C131_empty", "Jin.C131_reach", "Jin.Go.C131_text_build", "Jin.Go.C131_text_inside", "Jin.Go.C131_text_reach"], "note": "In full. The calls are given by their existence: the proof gives the order (all entries of a container empty first, then each filled)."},
{"property": "C132", "status": "partial", "theorems": ["Jin.C132_object_partial", "Jin.C132_array_partial", "Jin.C132_values_iff", "Jin.C132_strings_iff", "Jin.C132_fails", "Jin.C132_array_fails", "Jin.Go.C132_text_object_partial", "Jin.Go.C132_text_array_partial"], "note": "False of the code as stated: a value of one byte followed by white space is cut differently by GetValues and GetAll, and by GetStringArray and Get, and Length of [5] is 0 (C132_fails, C132_array_fails). The iff theorems give the exact condition for these pairs. Proved for all other objects with distinct keys and arrays; the _text_ theorems are about running the Go text."},
{"property": "C133", "status": "proved", "theorems": ["Jin.C133_commute", "Jin.C133_runs", "Jin.C133_sessions", "Jin.C133_refused", "Jin.Go.C133_text_commute", "Jin.Go.C133_text_runs", "Jin.Go.C133_text_sessions"], "note": "If no call reports an error, as stated; C133_refused shows an AddKeyValue that is refused in one order only (the fault of C21). The _text_ theorems are about the Go text, with the functions, the methods of JO and the typed functions."},
{"property": "C134", "status": "proved", "theorems": ["Jin.C134_part", "Jin.C134_runs", "Jin.C134_refused", "Jin.Go.C134_text_part", "Jin.Go.C134_text_runs"], "note": "If no call reports an error, as stated; C134_refused shows an AddKeyValue that is refused in the document and not on the part (the fault of C21)."},
{"property": "C135", "status": "proved", "theorems": ["Jin.C135_set", "Jin.C135_delete", "Jin.Go.C135_text_set", "Jin.Go.C135_text_delete"], "note": "The _text_ theorems are about the Go text."},
{"property": "C136", "status": "partial", "theorems": ["Jin.C136_session_partial", "Jin.C136_exact_partial", "Jin.C136_fails", "Jin.Go.C136_text_partial", "Jin.Go.C136_text_exact_partial"], "note": "Violated (C136_fails): Parser.SetKey drops the error of SetKey and reports success with the text unchanged, and Add and AddKeyValue to an empty root write a stray comma (C56). C136_session_partial: all other calls, in every state of the tree. C136_exact_partial: with SetKey, which renames or leaves the text. Both for the model and for programs on the text."},
{"property": "C137", "status": "proved", "theorems": ["Jin.C137_add", "Jin.C137_add_runs", "Jin.C137_addKeyValue", "Jin.C137_delete_member", "Jin.C137_delete_member_runs", "Jin.C137_delete_element", "Jin.C137_delete_element_runs", "Jin.Go.C137_text_add", "Jin.Go.C137_text_addKeyValue", "Jin.Go.C137_text_delete_member", "Jin.Go.C137_text_delete_element", "Jin.Go.C137_text_runs", "Jin.C137_insert", "Jin.C137_insert_runs", "Jin.Go.C137_text_insert", "Jin.C137_setKey", "Jin.Go.C137_text_setKey"], "note": "Mutation inside an entry and Add, Insert, AddKeyValue, SetKey or Delete of another entry of the same container, either order, same bytes; the _runs theorems give the success of all four calls; the text theorems are about the Go text."},
{"property": "C138", "status": "proved", "theorems": ["Jin.C138_sessions", "Jin.C138_delete_elements", "Jin.C138_delete_members", "Jin.C138_add_delete", "Jin.C138_addKeyValue_delete", "Jin.C138_delete_runs", "Jin.C138_bytes", "Jin.Go.C138_text_sessions", "Jin.Go.C138_text_delete"], "note": "C138_sessions is the general statement, the others the pairs; C138_bytes shows that white space may differ; the text theorems are about the Go text."},
{"property": "C14", "status": "proved", "theorems": ["Jin.C14_set_set", "Jin.C14_set_self"], "note": ""},
{"property": "C15", "status": "proved", "theorems": ["Jin.C15_sets_commute"], "note": ""},
{"property": "C16", "status": "proved", "theorems": ["Jin.C16_delete_exact"], "note": ""},
{"property": "C17", "status": "proved", "theorems": ["Jin.C17_delete_shift"], "note": ""},
{"property": "C18", "status": "proved", "theorems": ["Jin.C18_delete_frame"], "note": ""},
{"property": "C19", "status": "partial", "theorems": ["Jin.C19_deleted_gone_partial", "Jin.C19_deleted_text_partial", "Jin.C19_fails"], "note": "Violated: the key may be found in later text (C19_fails). Proved where the surroundings satisfy Json.missOk, and in any surroundings when the quoted key does not occur in the resulting text."},
{"property": "C20", "status": "proved", "theorems": ["Jin.C20_add"], "note": ""},
{"property": "C21", "status": "partial", "theorems": ["Jin.C21_addKeyValue_partial", "Jin.C21_all_or_nothing_partial", "Jin.C21_fails"], "note": "Violated: the key may be found in later text and the addition refused (C21_fails). Proved where Doc.clear holds (see C03) or the object is empty; in general the call adds the member or returns an error and the unchanged text."},
{"property": "C22", "status": "proved", "theorems": ["Jin.C22_addKeyValue_exists"], "note": ""},
{"property": "C23", "status": "partial", "theorems": ["Jin.C23_insert_partial", "Jin.C23_fails", "Jin.C23_iff", "Jin.C23_last"], "note": "Violated before the last of several elements when whitespace precedes it (C23_fails); proved otherwise. C23_iff: this is exactly when the result is not JSON; C23_last: what is written then."},
{"property": "C24", "status": "partial", "theorems": ["Jin.C24_setKey_partial", "Jin.C24_all_or_nothing_partial", "Jin.C24_fails"], "note": "Violated: the new key may be found in later text and the rename refused (C24_fails). Proved where Doc.clear holds (see C03). In any surroundings it renames exactly the member or returns an error and the text unchanged."},
{"property": "C25", "status": "proved", "theorems": ["Jin.C25_setKey_exists"], "note": ""},
{"property": "C26", "status": "partial", "theorems": ["Jin.C26_store_partial", "Jin.C26_fails"], "note": "Existing keys: proved in full. Absent keys: violated (C26_fails overwrites a value of another object), proved where Doc.clear holds (see C03)."},
{"property": "C27", "status": "partial", "theorems": ["Jin.C27_failed_mutation_partial", "Jin.C27_fails", "Jin.C27_nil", "Jin.C27_guards"], "note": "Violated: two functions return nil bytes with their error. C27_fails is a witness, C27_nil says exactly which calls, C27_failed_mutation_partial covers every other call; C27_guards says which error the typed ones give."},
{"property": "C28", "status": "proved", "theorems": ["Jin.C28_need_path", "Jin.C28_typed"], "note": ""},
{"property": "C29", "status": "proved", "theorems": ["Jin.C29_delete_undoes"], "note": "Stronger than stated: the original bytes come back in every case."},
{"property": "C30", "status": "proved", "theorems": ["Jin.C30_iterateArray", "Jin.C30_collect", "Jin.C30_other"], "note": "All callbacks; other values give ArrayExpected (C30_other)."},
{"property": "C31", "status": "partial", "theorems": ["Jin.C31_iterateKV_partial", "Jin.C31_no_error_partial", "Jin.C31_collect_partial", "Jin.C31_error_returned", "Jin.C31_other", "Jin.C31_error_fails", "Jin.C31_text_fails"], "note": "Violated by the code: the last member's error is dropped and whitespace after a one-byte value is kept (C31_error_fails, C31_text_fails). C31_iterateKV_partial is the exact behaviour for every callback; C31_no_error_partial is the stated property away from the two faults."},
{"property": "C32", "status": "partial", "theorems": ["Jin.C32_getKeys_partial", "Jin.C32_other", "Jin.C32_empty_fails"], "note": "Holds for every document except the text {} itself, where the code returns errEmpty (C32_empty_fails)."},
{"property": "C33", "status": "partial", "theorems": ["Jin.C33_getValues_partial", "Jin.C33_getValues_exact_partial", "Jin.C33_getKeysValues_exact_partial", "Jin.C33_agree", "Jin.C33_fails"], "note": "Violated by the code on one-byte values followed by whitespace (C33_fails); the exact behaviour is proved, and the stated property where no one-byte value is followed by whitespace."},
{"property": "C34", "status": "partial", "theorems": ["Jin.C34_object_exact_partial", "Jin.C34_array_exact_partial", "Jin.C34_root_object_partial", "Jin.C34_last_member_partial", "Jin.C34_fails"], "note": "Violated by the code: with a path, the byte after the value is compared to the closing bracket (C34_fails). Exact behaviour proved for objects and arrays, and the stated property for the root and for an object that is last in its object."},
{"property": "C35", "status": "proved", "theorems": ["Jin.C35_getAll_ok", "Jin.C35_getAll_err", "Jin.C35_getAllMap_ok", "Jin.C35_getAllMap_err"], "note": ""},
{"property": "C36", "status": "partial", "theorems": ["Jin.C36_length_path_partial", "Jin.C36_length_root_partial", "Jin.C36_fails"], "note": "Proved for every non-empty path. For the whole text the code counts 0 on [5] and the like (C36_fails); the exact result is proved."},
{"property": "C37", "status": "partial", "theorems": ["Jin.C37_isEmpty_exact_partial", "Jin.C37_isEmpty_partial", "Jin.C37_scalar_partial", "Jin.C37_fails", "Jin.C37_string_fails"], "note": "Violated by the code on arrays such as [5] and on strings that begin with a bracket (C37_fails, C37_string_fails); exact on containers, and the stated property elsewhere."},
{"property": "C38", "status": "partial", "theorems": ["Jin.C38_isArray", "Jin.C38_isValue", "Jin.C38_isObject_partial", "Jin.C38_fails"], "note": "IsArray and IsValue proved; IsObject is true on arrays too (C38_fails), its exact behaviour is proved."},
{"property": "C39", "status": "partial", "theorems": ["Jin.C39_getType_bracket", "Jin.C39_getType_literal_partial", "Jin.C39_number", "Jin.C39_number_text", "Jin.C39_big_fails", "Jin.C39_root_fails"], "note": "Containers, strings, booleans, null and every number that fits 64 bits proved; false for larger numbers (C39_big_fails) and for a scalar root text with whitespace around it (C39_root_fails)."},
{"property": "C40", "status": "proved", "theorems": ["Jin.C40_flatten", "Jin.C40_flatten_wf", "Jin.C40_flatten_idempotent", "Jin.C40_flatten_get"], "note": "Flatten is the rendering of the stripped tree, idempotent, scalar Get unchanged, for every well-formed text."},
{"property": "C41", "status": "partial", "theorems": ["Jin.C41_indent_partial", "Jin.C41_indent_tokens", "Jin.C41_partial", "Jin.C41_fails", "Jin.C41_bs_drops_space", "Jin.C41_bs_panics", "Jin.C41_root_string_panics"], "note": "Proved when no string or key ends with a backslash and the root is not a string, with the exact output. False otherwise: a string ending in an escaped backslash makes Indent drop spaces of later strings or panic; a root string always panics."},
{"property": "C42", "status": "proved", "theorems": ["Jin.C42_int_roundtrip"], "note": "All non-empty lists of 64-bit integers; also the text of each element."},
{"property": "C43", "status": "proved", "theorems": ["Jin.C43_bool_roundtrip"], "note": "All non-empty lists of booleans."},
{"property": "C44", "status": "proved", "theorems": ["Jin.C44_string_roundtrip"], "note": "Weaker condition than stated: valid string content not wrapped in brackets or braces (empty strings and surrounding blanks allowed). strconv.ParseFloat enters as a parameter that accepts only tokens."},
{"property": "C45", "status": "partial", "theorems": ["Jin.C45_make_nil_partial", "Jin.C45_fails"], "note": "Violated: the empty non-nil slice gives a lone closing bracket (C45_fails). The nil slice is right."},
{"property": "C46", "status": "partial", "theorems": ["Jin.C46_makeJsonString_partial", "Jin.C46_makeJson", "Jin.C46_makeJsonWithMap", "Jin.C46_lengths", "Jin.C46_printed_plain", "Jin.C46_fails", "Jin.C46_unescaped_fails"], "note": "MakeJsonString, MakeJson and MakeJsonWithMap for values that are plain strings or the text of a string, array or object; false for values with quotes or backslashes that are not valid string content (not escaped)."},
{"property": "C47", "status": "partial", "theorems": ["Jin.C47_makeArrayFloat_partial", "Jin.C47_exact_partial", "Jin.C47_iff_partial", "Jin.C47_finite", "Jin.C47_fails"], "note": "Violated: most floats are dropped or panic (C47_fails). C47_exact_partial and C47_iff_partial say exactly which, for all texts without exponent; C47_finite: these are the texts of all finite numbers. Infinities and NaN are left out."},
{"property": "C48", "status": "proved", "theorems": ["Jin.C48_scheme_calls", "Jin.C48_restore_last_save", "Jin.C48_restore_original", "Jin.C48_nodup"], "note": ""},
{"property": "C49", "status": "partial", "theorems": ["Jin.C49_check_true", "Jin.C49_check_partial", "Jin.C49_checkAbs_partial", "Jin.C49_fails", "Jin.C49_check_fails", "Jin.C49_checkAbs_fails"], "note": "Check true for present keys always; Check false for a missing key where Doc.clear holds at the root and CheckAbs exact outside the witnesses of failure: a last root value with brackets in strings that also contains the quoted key (Check finds a key that is not there), the text {} (CheckAbs refuses it)."},
{"property": "C50", "status": "partial", "theorems": ["Jin.C50_mutateAbs_partial", "Jin.C50_mutate_partial", "Jin.C50_missing_partial", "Jin.C50_fails", "Jin.C50_empty_key_fails", "Jin.C50_bracketed_fails", "Jin.C50_refused_fails"], "note": "MutateJsonAbs and MutateJson project as stated for non-empty keys, strings that do not look like containers, and containers without brackets in strings before the last key; each condition has a witness of failure."},
{"property": "C51", "status": "partial", "theorems": ["Jin.C51_jo_method_partial", "Jin.C51_jo_history_partial", "Jin.C51_fails"], "note": "Violated by JO.StoreString, which stores the raw text (C51_fails). All other methods, singly and over histories, are proved."},
{"property": "C52", "status": "partial", "theorems": ["Jin.C52_jo_failure_partial", "Jin.C52_fails"], "note": "Violated where the byte function returns nil bytes with its error (C52_fails)."},
{"property": "C53", "status": "partial", "theorems": ["Jin.C53_exact", "Jin.C53_partial", "Jin.C53_fails"], "note": "C53_exact gives the result of Parser.Get for every path after Parse; C53_partial: equal to Get for resolving plain paths. Missing: the element of a one-element array of a scalar, which the tree does not contain (C53_fails, for every such array)."},
{"property": "C54", "status": "proved", "theorems": ["Jin.C54_set", "Jin.C54_delete", "Jin.C54_setKey", "Jin.C54_setKey_all", "Jin.C54_unresolved"], "note": "Every parser state: after Set or Delete at a path the tree resolves the text is what the byte function gives. SetKey: every state when it reports success, and whatever it reports for a parser in step with a well-formed text of at most 2^63-1 bytes. An unresolved path changes nothing. Set does not pass on the error of the byte function; the claim is about the text."},
{"property": "C55", "status": "proved", "theorems": ["Jin.C55_get_after_set", "Jin.C55_stale"], "note": "Every parser state and every scalar; every path that is not a prefix of the changed one keeps its value, with or without an error. C55_stale: this includes paths below a replaced container, which the text has lost."},
{"property": "C56", "status": "partial", "theorems": ["Jin.C56_nested_add_partial", "Jin.C56_nested_addKeyValue_partial", "Jin.C56_root_add_exact", "Jin.C56_root_add_partial", "Jin.C56_root_addKeyValue_exact", "Jin.C56_root_addKeyValue_partial", "Jin.C56_fails"], "note": "Nested calls that report success: text of the byte function, every state. Root: exact text for every state over a root without whitespace around it; equal to the byte function for a non-empty root (AddKeyValue also needs Doc.clear, as the byte function does). Missing: empty roots and whitespace around the root, where it is false (C56_fails)."},
{"property": "C57", "status": "proved", "theorems": ["Jin.C57_walk", "Jin.C57_collect", "Jin.C57_get", "Jin.C57_walk_exact", "Jin.C57_scalar", "Jin.C57_not_stopped", "Jin.C57_outside"], "note": "Exact calls for every callback (C57_walk_exact), the property for callbacks without errors; texts up to 2^63-1 bytes. Beyond the property: an answer of false does not stop the walk and the error for the last member of an object is lost (C57_not_stopped)."},
{"property": "C58", "status": "proved", "theorems": ["Jin.C58_errEqual", "Jin.C58_foreign"], "note": ""},
{"property": "C59", "status": "partial", "theorems": ["Jin.C59_one_digit_partial", "Jin.C59_base64_panics", "Jin.C59_base32_wrong"], "note": "Violated: base 64 panics, base 32 is not decimal from 10 on. Holds for one-digit 32-bit numbers."},
{"property": "C60", "status": "partial", "theorems": ["Jin.C60_exact", "Jin.C60_value", "Jin.C60_content_partial", "Jin.C60_plain_partial", "Jin.C60_writers", "Jin.C60_makeArray", "Jin.C60_fails", "Jin.C60_wrapped_fails", "Jin.C60_words_fails", "Jin.C60_document_fails"], "note": "Exact: for string content or a JSON value, formatType writes a JSON value unless it writes the string without quotes and that is none; always for JSON values; for content that does not begin like a number and is no word of ParseFloat (C60_plain_partial). False for +5, -007, [x], nan, Infinity, 1_0, 0x1p4, .5 and the like, which are written raw."},
{"property": "C61", "status": "partial", "theorems": ["Jin.C61_exact", "Jin.C61_strings_partial", "Jin.C61_ints_partial", "Jin.C61_floats_partial", "Jin.C61_bools", "Jin.C61_ints_error", "Jin.C61_fails", "Jin.C61_ints_fail", "Jin.C61_root_space", "Jin.C61_empty"], "note": "Exact result for every non-empty array (C61_exact); equals the contents when every element is snug and a root array has no whitespace around it; false otherwise ([1 ,2], root with surrounding whitespace)."},
{"property": "C62", "status": "proved", "theorems": ["Jin.C62_covers", "Jin.C62_values", "Jin.C62_unique"], "note": "RFC 8259 grammar over bytes in Spec/Rfc; equivalence with well-formed strict trees and uniqueness of the tree."},
{"property": "C63", "status": "partial", "theorems": ["Jin.C63_set", "Jin.C63_delete", "Jin.C63_add", "Jin.C63_addKeyValue", "Jin.C63_setKey", "Jin.C63_insert_partial", "Jin.C63_store_partial", "Jin.C63_fails"], "note": "Set, Delete, Add, AddKeyValue, SetKey in full; Insert and Store under the conditions of C23 and C26. Violated by Insert before the last element with space before it (C63_fails)."},
{"property": "C64", "status": "partial", "theorems": ["Jin.C64_session_partial", "Jin.C64_call_partial", "Jin.C64_get", "Jin.C64_resolves", "Jin.C64_set_partial", "Jin.C64_setKey_partial", "Jin.C64_delete_partial", "Jin.C64_add_partial", "Jin.C64_addKeyValue_partial", "Jin.C64_root_add_partial", "Jin.C64_root_addKeyValue_partial", "Jin.C64_fails"], "note": "Any number of calls, in any order, of: Set of a scalar or empty container to a scalar; SetKey of a member to a key its object lacks (Doc.clear, see C24); Delete of a member with a unique key or of the last array element; Add of a scalar to a nested array other than one holding a single scalar; AddKeyValue of a scalar to a nested object under a key new to it and to the container around it; Add and AddKeyValue of a scalar at a root with entries and no whitespace around it (C56_fails shows the others). C64_fails shows what the other calls do (stale labels, renamed elements, entries one level too deep). Not covered: containers as new values, Insert."},
{"property": "C65", "status": "partial", "theorems": ["Jin.C65_typed_partial"], "note": "All eight getters, values and errors, for every path the tree resolves, after any number of the calls C64 covers. Missing: the calls of C64_fails."},
{"property": "C66", "status": "partial", "theorems": ["Jin.C66_getNew_partial", "Jin.C66_root_partial", "Jin.C66_fails"], "note": "Below the root for every resolved path, and the whole document while the root has entries in the tree, after any number of the calls C64 covers. Missing: a root without entries, which shows its old text (C66_fails), and the calls of C64_fails."},
{"property": "C67", "status": "partial", "theorems": ["Jin.C67_text", "Jin.C67_insert_partial", "Jin.C67_fails"], "note": "Text: in full, every state (C67_text). Tree: scalars inserted into an array other than one holding a single scalar, in a state reached by the calls C64 covers. Missing: a second Insert into the same array, containers, arrays of one scalar (C67_fails), the texts of C23_fails."},
{"property": "C68", "status": "partial", "theorems": ["Jin.C68_parse_exact", "Jin.C68_full_exact", "Jin.C68_tree_partial", "Jin.C68_drawn_partial", "Jin.C68_fails"], "note": "Tree and TreeFull right after Parse exactly (an array of one scalar lists no element, C68_fails); after any number of the calls C64 covers both draw the document, where an array of one scalar may be drawn without its element (C68_drawn_partial). The padding of TreeFull is a parameter."},
{"property": "C69", "status": "partial", "theorems": ["Jin.C69_add_partial", "Jin.C69_addKeyValue_partial", "Jin.C69_insert", "Jin.C69_set_partial", "Jin.C69_fails"], "note": "Insert methods in full; Add and AddKeyValue methods at nested paths in every state; SetInt, SetFloat, SetBool at resolved paths, SetString for strings that formatType quotes. Missing: Add at the root (C56_fails), SetString of numbers, literals and half-quoted strings (C69_fails)."},
{"property": "C70", "status": "proved", "theorems": ["Jin.C70_get_set_same_bytes"], "note": ""},
{"property": "C71", "status": "partial", "theorems": ["Jin.C71_add", "Jin.C71_addKeyValue", "Jin.C71_insert", "Jin.C71_setKey", "Jin.C71_delete_partial", "Jin.C71_delete_fails"], "note": "False for Delete when the text begins with a comma (C71_delete_fails: the text grows); proved otherwise."},
{"property": "C72", "status": "partial", "theorems": ["Jin.C72_set", "Jin.C72_setKey", "Jin.C72_add", "Jin.C72_addKeyValue", "Jin.C72_insert_partial", "Jin.C72_delete_partial", "Jin.C72_fails"], "note": "False for Insert and Delete (C72_fails); for these two the only texts that panic are named. Proved for Set, SetKey, Add and AddKeyValue."},
{"property": "C73", "status": "proved", "theorems": ["Jin.C73_open_array", "Jin.C73_open_root", "Jin.C73_empty_text", "Jin.C73_iterateArray", "Jin.C73_parser_empty", "Jin.C73_stripQuotes"], "note": "Exact errors on input that cannot work; nothing is changed."},
{"property": "C74", "status": "partial", "theorems": ["Jin.C74_wrong_kind_partial", "Jin.C74_fails"], "note": "For every value except strings whose content begins and ends with the brackets; C74_fails shows that those are taken for containers and changed."},
{"property": "C75", "status": "partial", "theorems": ["Jin.C75_caller_memory_partial", "Jin.C75_fails"], "note": "Violated (C75_fails): a path slice with spare capacity gets the cell behind it overwritten. Proved: nothing else changes, and nothing at all without spare capacity."},
{"property": "C76", "status": "partial", "theorems": ["Jin.C76_layout_partial", "Jin.C76_fails"], "note": "AddKeyValue, Insert, Store in full. GetAll and GetAllMap unless the keys contain the spare cell behind the path, where the result is wrong (C76_fails)."},
{"property": "C77", "status": "partial", "theorems": ["Jin.C77_walk_partial", "Jin.C77_kept_partial", "Jin.C77_kept_doubling", "Jin.C77_fails"], "note": "While the callback runs and for the caller's slices: in full (C77_walk_partial). After the walk: for paths no longer than the shortest one with spare capacity, three entries when capacities double. Violated for longer ones (C77_fails)."},
{"property": "C78", "status": "proved", "theorems": ["Jin.C78_scheme_memory"], "note": ""},
{"property": "C79", "status": "partial", "theorems": ["Jin.C79_independent_partial", "Jin.C79_fails"], "note": "For schemes made from slices without spare capacity; violated otherwise (C79_fails)."},
{"property": "C80", "status": "partial", "theorems": ["Jin.C80_handed_out_partial", "Jin.C80_fails"], "note": "For histories without Restore; violated with it (C80_fails)."},
{"property": "C81", "status": "proved", "theorems": ["Jin.C81_get_compose"], "note": ""},
{"property": "C82", "status": "proved", "theorems": ["Jin.C82_set_compose"], "note": ""},
{"property": "C83", "status": "partial", "theorems": ["Jin.C83_after_partial", "Jin.C83_errors_partial", "Jin.C83_fails"], "note": "Paths that resolve, index errors, and missing keys whose quoted text does not follow the object. A missing key is otherwise found behind the document: C83_fails."},
{"property": "C84", "status": "partial", "theorems": ["Jin.C84_length_partial", "Jin.C84_fails"], "note": "Containers below the root, and Insert under the condition of C23. At the root Length counts [5] as empty: C84_fails."},
{"property": "C85", "status": "proved", "theorems": ["Jin.C85_insert_undone"], "note": "Under the condition of C23, which the property names."},
{"property": "C86", "status": "proved", "theorems": ["Jin.C86_setKey_back"], "note": ""},
{"property": "C87", "status": "proved", "theorems": ["Jin.C87_member", "Jin.C87_element", "Jin.C87_elsewhere"], "note": ""},
{"property": "C88", "status": "proved", "theorems": ["Jin.C88_get", "Jin.C88_inspect", "Jin.C88_mutators", "Jin.C88_iterate", "Jin.C88_collect"], "note": ""},
{"property": "C89", "status": "partial", "theorems": ["Jin.C89_root_partial", "Jin.C89_nested_partial", "Jin.C89_fails"], "note": "Holds for the root object. Below the root the error and the text are right, but the refused node stays in the tree and a key of the surrounding object is refused too (C89_fails)."},
{"property": "C90", "status": "proved", "theorems": ["Jin.C90_iterateArray"], "note": "Any bytes, any callback that does not panic. With a path the condition on the last byte is that of C06, needed because core reads past such a byte."},
{"property": "C91", "status": "proved", "theorems": ["Jin.C91_getKeys", "Jin.C91_getValues", "Jin.C91_getKeysValues", "Jin.C91_iterateKeyValue", "Jin.C91_path", "Jin.C91_iterateKeyValue_path", "Jin.C91_fails"], "note": "Exact for whole texts (no path); with a path exact for GetKeys and GetValues from the place where the value starts, one direction for IterateKeyValue. The callback must not panic, and go on always for the second direction. C91_fails shows concrete texts."},
{"property": "C92", "status": "proved", "theorems": ["Jin.C92_parse", "Jin.C92_no_panic", "Jin.C92_fails"], "note": "Exact for every byte string. C92_no_panic is the usual case; C92_fails has a text of each kind."},
{"property": "C93", "status": "proved", "theorems": ["Jin.C93_set", "Jin.C93_setKey", "Jin.C93_addKeyValue", "Jin.C93_add", "Jin.C93_insert", "Jin.C93_delete", "Jin.C93_store", "Jin.C93_strings", "Jin.C93_guarded", "Jin.C93_nil", "Jin.C93_later"], "note": "Any heap, any overlap of document and value, any allocation policy. The string variants and the argument-checking ones are in C93_strings and C93_guarded, nil documents in C93_nil."},
{"property": "C94", "status": "partial", "theorems": ["Jin.C94_get", "Jin.C94_append", "Jin.C94_append_partial", "Jin.C94_cut_partial", "Jin.C94_fails"], "note": "Disproved by C94_fails: appending to the result overwrites the document behind the value when the array has room. C94_get gives the exact slice, C94_append the exact effect, the partial theorems the harmless cases."},
{"property": "C95", "status": "partial", "theorems": ["Jin.C95_iterateArray_partial", "Jin.C95_iterateKeyValue_partial", "Jin.C95_walk_partial", "Jin.C95_listing", "Jin.C95_fails"], "note": "Disproved by C95_fails for callbacks that append to the slice they get. Proved for every callback that keeps the document's bytes, with any other effect on memory and state."},
{"property": "C96", "status": "proved", "theorems": ["Jin.C96_sessions"], "note": "sessions of calls on several parsers; byte slices are values here"},
{"property": "C97", "status": "proved", "theorems": ["Jin.C97_trees", "Jin.C97_apart"], "note": "shape of the node memory and independence of parsers"},
{"property": "C98", "status": "proved", "theorems": ["Jin.Go.text_Get", "Jin.Go.text_GetString", "Jin.Go.text_GetInt", "Jin.Go.text_GetFloat", "Jin.Go.text_GetBool", "Jin.Go.text_Set", "Jin.Go.text_Delete", "Jin.Go.text_SetString", "Jin.Go.text_SetInt", "Jin.Go.text_SetFloat", "Jin.Go.text_SetBool", "Jin.Go.text_SetKey", "Jin.Go.text_Add", "Jin.Go.text_AddKeyValue", "Jin.Go.text_Insert", "Jin.Go.text_Store", "Jin.Go.text_StoreString", "Jin.Go.text_StoreInt", "Jin.Go.text_StoreFloat", "Jin.Go.text_StoreBool", "Jin.Go.text_AddKeyValueString", "Jin.Go.text_AddKeyValueInt", "Jin.Go.text_AddKeyValueInt32", "Jin.Go.text_AddKeyValueInt64", "Jin.Go.text_AddKeyValueUint", "Jin.Go.text_AddKeyValueUint32", "Jin.Go.text_AddKeyValueUint64", "Jin.Go.text_AddKeyValueFloat", "Jin.Go.text_AddKeyValueBool", "Jin.Go.text_AddString", "Jin.Go.text_AddInt", "Jin.Go.text_AddInt32", "Jin.Go.text_AddInt64", "Jin.Go.text_AddUint", "Jin.Go.text_AddUint32", "Jin.Go.text_AddUint64", "Jin.Go.text_AddFloat", "Jin.Go.text_AddBool", "Jin.Go.text_InsertString", "Jin.Go.text_InsertInt", "Jin.Go.text_InsertInt32", "Jin.Go.text_InsertInt64", "Jin.Go.text_InsertUint", "Jin.Go.text_InsertUint32", "Jin.Go.text_InsertUint64", "Jin.Go.text_InsertFloat", "Jin.Go.text_InsertBool", "Jin.Go.text_IsObject", "Jin.Go.text_IsArray", "Jin.Go.text_IsValue", "Jin.Go.text_GetType", "Jin.Go.text_IsEmpty", "Jin.Go.text_ParseArray", "Jin.Go.text_GetIntArray", "Jin.Go.text_GetFloatArray", "Jin.Go.text_GetBoolArray", "Jin.Go.text_GetStringArray", "Jin.Go.text_Flatten", "Jin.Go.text_Indent", "Jin.Go.text_Length", "Jin.Go.text_GetKeys", "Jin.Go.text_GetValues", "Jin.Go.text_GetKeysValues", "Jin.Go.text_GetAll", "Jin.Go.text_MakeEmptyArray", "Jin.Go.text_MakeEmptyJson", "Jin.Go.text_MakeArrayString", "Jin.Go.text_MakeArrayInt", "Jin.Go.text_MakeArrayBytes", "Jin.Go.text_MakeArrayBool", "Jin.Go.text_MakeArrayFloat", "Jin.Go.text_MakeJsonString", "Jin.Go.run_IterateArray", "Jin.Go.run_IterateKeyValue"], "note": "Text of ten files run in Lean; reader and semantics are described in DESIGN.md, which also lists the functions of these files that are not read."},
{"property": "C99", "status": "proved", "theorems": ["Jin.Go.C99_readers_halt", "Jin.Go.C99_mutators_halt"], "note": "From C98, for the functions listed."},
{"property": "C139", "status": "partial", "theorems": ["Jin.C139_parts_partial", "Jin.C139_value_partial", "Jin.C139_fails", "Jin.Go.C139_text_parts_partial", "Jin.Go.C139_text_value_partial", "Jin.Go.C139_text_fails"], "note": "Violated (C139_fails, C139_text_fails): Parser.SetKey does nothing and reports success when a later part of the text has the new key, so the order of SetKey in one part and AddKeyValue in another shows. Proved for all other calls; the second statement for values below the root, as Add to an empty root writes a stray comma (C56)."},
{"property": "C140", "status": "partial", "theorems": ["Jin.C140_nested_partial", "Jin.C140_long", "Jin.C140_long_panics", "Jin.C140_root", "Jin.C140_fails", "Jin.Go.text_Parser_AddKeyValueNil", "Jin.Go.C140_text_session", "Jin.Go.C140_text_nested_partial", "Jin.Go.C140_text_fails"], "note": "Violated (C140_fails, C140_text_fails). Exactly: a key of two bytes or more makes every call panic that would otherwise succeed (C140_long, C140_long_panics); at the root the member is written without a value (C140_root); below the root the text gets null (C140_nested_partial) but Get of the parser gives an empty value."},
{"property": "C141", "status": "partial", "theorems": ["Jin.C141_readers", "Jin.C141_writers", "Jin.C141_guarded", "Jin.C141_length_partial", "Jin.C141_longer", "Jin.C141_types", "Jin.C141_members_partial", "Jin.C141_elements_partial", "Jin.C141_below", "Jin.C141_setKey", "Jin.C141_fails", "Jin.Go.C141_text_readers", "Jin.Go.C141_text_writers", "Jin.Go.C141_text_guarded", "Jin.Go.C141_text_longer", "Jin.Go.C141_text_types", "Jin.Go.C141_text_containers_partial", "Jin.Go.C141_text_fails"], "note": "Violated (C141_fails): on the texts {} and [] Length, GetMap, GetKeys and the iterators do not look at the path, and functions that read only the beginning of a value do not see that it is not closed. Proved for all other texts; for the latter functions the error is a missing key, an index out of range or a key for an index. Sized integers are left out (C59)."},
{"property": "C142", "status": "partial", "theorems": ["Jin.C142_texts", "Jin.C142_partial", "Jin.C142_exact_partial", "Jin.C142_fails", "Jin.Go.C142_text_partial", "Jin.Go.C142_text_fails"], "note": "Violated: MakeArrayFloat drops most numbers or panics, and GetFloatArray panics on what is left (C142_fails). C142_exact_partial: the list comes back exactly when MakeArrayFloat keeps all its numbers (NumText.kept), and GetFloatArray panics otherwise. Proved for all numbers and infinities by way of MakeArrayBytes."},
{"property": "C143", "status": "partial", "theorems": ["Jin.C143_set", "Jin.C143_setKey", "Jin.C143_delete", "Jin.C143_addKeyValue", "Jin.C143_addKeyValueNil", "Jin.C143_add_partial", "Jin.C143_insert", "Jin.C143_fails", "Jin.Go.C143_text_set", "Jin.Go.C143_text_setKey", "Jin.Go.C143_text_delete", "Jin.Go.C143_text_addKeyValue", "Jin.Go.C143_text_add_partial", "Jin.Go.C143_text_insert", "Jin.Go.C143_text_fails", "Jin.C143_add_outer", "Jin.Go.C143_text_add_outer", "Jin.Go.C143_text_addKeyValueNil"], "note": "Violated by Add of an object or array: Get gives for the outermost container around the array what it gave before (C143_fails, C143_add_outer). Proved of all other calls and of Add without that container, for every parser state, and of the text for every parser that a program holds."},
{"property": "C144", "status": "proved", "theorems": ["Jin.C144_set", "Jin.C144_setKey", "Jin.C144_delete", "Jin.C144_addKeyValue", "Jin.C144_addKeyValueNil", "Jin.C144_add", "Jin.C144_insert", "Jin.C144_addKeyValue_below", "Jin.C144_addKeyValueNil_below", "Jin.C144_add_below", "Jin.C144_setKey_found", "Jin.C144_setKey_new", "Jin.Go.C144_text_set", "Jin.Go.C144_text_setKey", "Jin.Go.C144_text_setKey_found", "Jin.Go.C144_text_delete", "Jin.Go.C144_text_addKeyValue", "Jin.Go.C144_text_add", "Jin.Go.C144_text_insert", "Jin.Go.C144_text_addKeyValue_below", "Jin.Go.C144_text_add_below", "Jin.Go.C144_text_addKeyValueNil", "Jin.Go.C144_text_addKeyValueNil_below"], "note": "Every parser state and every outcome that is not a panic; of the text for every parser that a program holds. C144_setKey_new: the condition of SetKey is needed; a value that was there stays without it (C144_setKey_found)."},
{"property": "C145", "status": "partial", "theorems": ["Jin.C145_set_partial", "Jin.C145_addKeyValue_partial", "Jin.C145_add_partial", "Jin.C145_insert_partial", "Jin.C145_add_root_partial", "Jin.C145_insert_root_partial", "Jin.C145_addKeyValue_short_partial", "Jin.C145_add_lone_partial", "Jin.C145_add_root_lone_partial", "Jin.C145_fails", "Jin.Go.C145_text_set_partial", "Jin.Go.C145_text_addKeyValue_partial", "Jin.Go.C145_text_add_partial", "Jin.Go.C145_text_insert_partial", "Jin.Go.C145_text_add_root_partial", "Jin.Go.C145_text_insert_root_partial", "Jin.Go.C145_text_addKeyValue_short_partial", "Jin.Go.C145_text_add_lone_partial", "Jin.Go.C145_text_add_root_lone_partial", "Jin.Go.C145_text_fails"], "note": "False as stated (C145_fails): the tree of the given value is hung below the place under one more entry 0. Proved is exactly what Get gives: the value at the place; what a parser of the value gives, when the path has a 0 after the place; an error at every other path below. Set: every state. AddKeyValue: every state, keys that the parser does not know; after a key of one byte nothing inside the value is found (C145_addKeyValue_short_partial). Add and Insert: parsers that sessions reach; Insert into an array that is the root leaves the value of the new entry empty, so that Get gives the empty text there (C145_insert_root_partial); Add to an array of one scalar that is not listed makes the new value the entry 0 (C145_add_lone_partial). All four also of the text."},
{"property": "C146", "status": "proved", "theorems": ["Jin.C146_taken", "Jin.C146_nowhere", "Jin.C146_empty", "Jin.Go.C146_text_taken", "Jin.Go.C146_text_nowhere", "Jin.Go.C146_text_empty"], "note": "Value trees in every state; of the text for every parser that a program holds."},
{"property": "C147", "status": "proved", "theorems": ["Jin.C147_delete", "Jin.C147_setKey", "Jin.Go.C147_text_delete", "Jin.Go.C147_text_setKey"], "note": "Value trees in every state; of the text for every parser that a program holds."},
{"property": "C148", "status": "proved", "theorems": ["Jin.C148_addKeyValue", "Jin.Go.C148_text_addKeyValue"], "note": "Value trees in every state; of the text for every parser that a program holds."}
]}
