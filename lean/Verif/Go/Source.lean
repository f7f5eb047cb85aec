import Verif.Go.Parse
/-!
# Go.Source — the text of the package

The files of `/repo` that `Go.Parse` reads, copied without change.
-/

set_option linter.all false

go_source errors r#"package jin

import (
	"fmt"
	"strconv"
)

const (
	ErrCodeNullPath          int = 0
	ErrCodeEmptyArray        int = 2
	ErrCodeIndexExpected     int = 3
	ErrCodeObjectExpected    int = 5
	ErrCodeArrayExpected     int = 6
	ErrCodeIndexOutOfRange   int = 7
	ErrCodeKeyNotFound       int = 8
	ErrCodeBadJSON           int = 9
	ErrCodeKeyAlreadyExist   int = 11
	ErrCodeIntegerParse      int = 12
	ErrCodeFloatParse        int = 13
	ErrCodeBoolParse         int = 14
	ErrCodeStringArrayParse  int = 15
	ErrCodeIntegerArrayParse int = 16
	ErrCodeFloatArrayParse   int = 17
	ErrCodeBoolArrayParse    int = 18
	ErrCodeNullKey           int = 19
	ErrCodeEmpty             int = 20
)

func ErrEqual(err error, code int) bool {
	if err == nil {
		return false
	}
	str := err.Error()
	if len(str) < 2 {
		return false
	}
	codeStr := str[len(str)-2:]
	c, err := strconv.Atoi(codeStr)
	if err != nil {
		return false
	}
	return c == code
}

// errNullPath "error: path cannot be null error_code:00"
func errNullPath() error {
	return fmt.Errorf("error: path cannot be null error_code: %02d", ErrCodeNullPath)
}

// errEmptyArray "error: array is empty error_code:02"
func errEmptyArray() error {
	return fmt.Errorf("error: array is empty error_code: %02d", ErrCodeEmptyArray)
}

// errIndexExpected "error: index expected, got key value error_code:03"
func errIndexExpected() error {
	return fmt.Errorf("error: index expected, got key value error_code: %02d", ErrCodeIndexExpected)
}

// errObjectExpected "error: last path must be pointed at an object error_code:05"
func errObjectExpected() error {
	return fmt.Errorf("error: last path must be pointed at an object error_code: %02d", ErrCodeObjectExpected)
}

// errArrayExpected "error: last path must be pointed at an array error_code:06"
func errArrayExpected() error {
	return fmt.Errorf("error: last path must be pointed at an array error_code: %02d", ErrCodeArrayExpected)
}

// errIndexOutOfRange "error: index out of range error_code:07"
func errIndexOutOfRange() error {
	return fmt.Errorf("error: index out of range error_code: %02d", ErrCodeIndexOutOfRange)
}

// errKeyNotFound "error: key '%v' not found error_code:08"
func errKeyNotFound(key string) error {
	return fmt.Errorf("error: key '%v' not found error_code: %02d", key, ErrCodeKeyNotFound)
}

// errBadJSON "error: bad json format. at:'%v' error_code:09"
func errBadJSON(val int) error {
	return fmt.Errorf("error: bad json format. at:'%v' error_code: %02d", val, ErrCodeBadJSON)
}

// errKeyAlreadyExist "error: key '%v' already exist error_code:11"
func errKeyAlreadyExist(key string) error {
	return fmt.Errorf("error: key '%v' already exist error_code: %02d", key, ErrCodeKeyAlreadyExist)
}

// errIntegerParse "parse error: '%v' cannot be converted to int. error_code:12"
func errIntegerParse(val string) error {
	return fmt.Errorf("parse error: '%v' cannot be converted to int. error_code: %02d", val, ErrCodeIntegerParse)
}

// errFloatParse "parse error: '%v' cannot be converted to float. error_code:13"
func errFloatParse(val string) error {
	return fmt.Errorf("parse error: '%v' cannot be converted to float. error_code: %02d", val, ErrCodeFloatParse)
}

// errBoolParse "parse error: '%v' cannot be converted to bool. error_code:14"
func errBoolParse(val string) error {
	return fmt.Errorf("parse error: '%v' cannot be converted to bool. error_code: %02d", val, ErrCodeBoolParse)
}

// errStringArrayParse "parse error: '%v' cannot be converted to []string. error_code:15"
func errStringArrayParse(val string) error {
	return fmt.Errorf("parse error: '%v' cannot be converted to []string. error_code: %02d", val, ErrCodeStringArrayParse)
}

// errIntegerArrayParse "parse error: '%v' cannot be converted to []int. error_code:16"
func errIntegerArrayParse(val string) error {
	return fmt.Errorf("parse error: '%v' cannot be converted to []int. error_code: %02d", val, ErrCodeIntegerArrayParse)
}

// errFloatArrayParse "parse error: '%v' cannot be converted to []float. error_code:17"
func errFloatArrayParse(val string) error {
	return fmt.Errorf("parse error: '%v' cannot be converted to []float. error_code: %02d", val, ErrCodeFloatArrayParse)
}

// errBoolArrayParse "parse error: '%v' cannot be converted to []bool. error_code:18"
func errBoolArrayParse(val string) error {
	return fmt.Errorf("parse error: '%v' cannot be converted to []bool. error_code: %02d", val, ErrCodeBoolArrayParse)
}

// errNullKey "error: new key cannot be null error_code:19"
func errNullKey() error {
	return fmt.Errorf("error: new key cannot be null error_code: %02d", ErrCodeNullKey)
}

// errEmpty "error: Object/Array is empty error_code:20"
func errEmpty() error {
	return fmt.Errorf("error: Object/Array is empty error_code: %02d", ErrCodeEmpty)
}
"#

go_source utils r#"package jin

import (
	"strconv"
	"unsafe"
)

func replace(json, newValue []byte, start, end int) []byte {
	newJSON := make([]byte, 0, len(json)-end+start+len(newValue))
	newJSON = append(newJSON, json[:start]...)
	newJSON = append(newJSON, newValue...)
	newJSON = append(newJSON, json[end:]...)
	return newJSON
}

func space(curr byte) bool {
	// space
	if curr == 32 {
		return true
	}
	// tab
	if curr == 9 {
		return true
	}
	// new line NL
	if curr == 10 {
		return true
	}
	// return CR
	if curr == 13 {
		return true
	}
	return false
}

func createTabs(n int) []byte {
	res := make([]byte, n)
	for i := range res {
		res[i] = 9
	}
	return res
}

// make private after
func stripQuotes(str string) string {
	if len(str) > 1 {
		if str[0] == 34 && str[len(str)-1] == 34 {
			str = str[1 : len(str)-1]
		}
	}
	return str
}

func formatType(val string) string {
	if len(val) == 0 {
		return `""`
	}
	if isBool(val) {
		return val
	}
	if isInt(val) {
		if val[0] == 48 && len(val) > 1 {
			return `"` + val + `"`
		}
		return val
	}
	if isFloat(val) {
		return val
	}
	if val == "null" {
		return val
	}
	start := val[0]
	end := val[len(val)-1]
	// if its starts with `"` and ends with `"`  return it self
	if start == 34 && end == 34 {
		return val
	}
	// if its starts with `[` and ends with `]` return it self
	if start == 91 && end == 93 {
		return val
	}
	// if its starts with `{` and ends with `}` return it self
	if start == 123 && end == 125 {
		return val
	}
	return `"` + val + `"`
}

func isBool(val string) bool {
	return val == "true" || val == "false"
}

func isFloat(val string) bool {
	_, err := strconv.ParseFloat(val, 64)
	return err == nil
}

func isInt(val string) bool {
	_, err := strconv.ParseInt(val, 10, 32)
	return err == nil
}

func cleanValueString(str string) string {
	start := 0
	lens := len(str)
	for space(str[start]) && start < lens-1 {
		start++
	}
	end := lens - 1
	for space(str[end]) && end > 1 {
		end--
	}
	if str[start] == 34 && str[end] == 34 {
		start++
		end--
	}
	return str[start : end+1]
}

func cleanValue(str []byte) []byte {
	if len(str) == 0 {
		return str
	}
	start := 0
	lens := len(str)
	end := lens - 1
	for i := start; i < lens-1; i++ {
		if !space(str[i]) {
			break
		}
		start++
	}
	for i := end; i > start; i-- {
		if !space(str[i]) {
			break
		}
		end--
	}
	if str[start] == 34 && str[end] == 34 {
		start++
		end--
	}
	return str[start : end+1]
}

func byteArrayToString(arr []byte) string {
	return *(*string)(unsafe.Pointer(&arr))
}

func getStartEnd(json []byte, path ...string) (int, int, error) {
	lenj := len(json)
	if lenj < 2 {
		return -1, -1, errBadJSON(0)
	}
	var err error
	var start int
	var end int
	lenp := len(path)
	if lenp != 0 {
		_, start, end, err = core(json, false, path...)
		if err != nil {
			return -1, -1, err
		}
	} else {
		for space(json[start]) {
			if start > len(json)-1 {
				return -1, -1, errBadJSON(start)
			}
			start++
			continue
		}
		end = lenj - 1
		for space(json[end]) {
			if end < start {
				return -1, -1, errBadJSON(start)
			}
			end--
			continue
		}
	}
	return start, end, nil
}
"#

go_source inter_core r#"package jin

import (
	"strconv"
)

// Only this function commented, other Get() and Set() functions based on same logic.
// Do not use with zero length path! no control for that
// Not for public usage
func core(json []byte, justStart bool, path ...string) (int, int, int, error) {
	// null json control.
	if len(json) < 2 {
		return -1, -1, -1, errBadJSON(0)
	}
	// main offset track of this search.
	offset := 0
	currentPath := path[0]
	// important chars for json interpretation.
	// 34 = "
	// 44 = ,
	// 58 = :
	// 91 = [
	// 93 = ]
	// 123 = {
	// 125 = }
	chars := []byte{34, 44, 58, 91, 93, 123, 125}
	// creating a bool array fill with false
	isJSONChar := make([]bool, 256)
	// only interested chars is true
	for _, v := range chars {
		isJSONChar[v] = true
	}
	// trim spaces of start
	for space(json[offset]) {
		// json length overflow control
		if offset > len(json)-1 {
			return -1, -1, -1, errBadJSON(offset)
		}
		offset++
		continue
	}
	// braceType determine whether or not search will be a key search or index search
	braceType := json[offset]
	// if last path pointing at a key, that placeholder stores key start point.
	keyStart := -1
	// main iteration off all bytes.
	for k := 0; k < len(path); k++ {
		// 91 = [, beginning of an array search
		if braceType == 91 {
			// ARRAY SEARCH SCOPE
			// path value cast to integer for determine index.
			arrayIndex, err := strconv.Atoi(currentPath)
			if err != nil {
				// braceType and current path type is conflicts.
				return -1, -1, -1, errIndexExpected()
			}
			// zeroth index search.
			if arrayIndex == 0 {
				// Increment offset for not catch current brace.
				offset++
				// Inner iteration for brace type search.
				for i := offset; i < len(json); i++ {
					// curr is current byte of reading.
					curr := json[i]
					if !space(curr) {
						// Open brace
						if curr == 123 || curr == 91 {
							// change brace type of next search.
							braceType = curr
							if k != len(path)-1 {
								// If its not last path than change currentPath to next path.
								currentPath = path[k+1]
							}
							// Assign offset to brace index.
							offset = i
							break
						} else {
							if k != len(path)-1 {
								return -1, -1, -1, errIndexOutOfRange()
							}
							break
						}
					}
				}
			} else {
				// Brace level every brace increments the level
				level := 0
				// main in quote flag for determine what is in quote and what is not
				inQuote := false
				// index found flag.
				found := false
				// Index count of current element.
				indexCount := 0
				// Not interested with column char in this search
				isJSONChar[58] = false
				for i := offset; i < len(json); i++ {
					// curr is current byte of reading.
					curr := json[i]
					// Just interested with json chars. Other wise continue.
					if !isJSONChar[curr] {
						continue
					}
					// If current byte is quote
					if curr == 34 {
						for n := i - 1; n > -1; n-- {
							if json[n] != 92 {
								if (i-n)&1 != 0 {
									inQuote = !inQuote
									break
								} else {
									break
								}
							}
							continue
						}
						continue
					}
					if inQuote {
						continue
					} else {
						// Not found before
						if !found {
							// same level with path
							if level == 1 {
								// current byte is comma
								if curr == 44 {
									// Inc index
									indexCount++
									if indexCount == arrayIndex {
										found = true
										for j := i + 1; j < len(json); j++ {
											curr := json[j]
											if !space(curr) {
												if curr != 91 && curr != 123 {
													if k != len(path)-1 {
														return -1, -1, -1, errIndexOutOfRange()
													}
													break
												}
												break
											}
										}
										if k == len(path)-1 {
											// last path found, break
											offset = i + 1
											break
										} else {
											continue
										}
										// keep going for find next brace Type.
									}
									continue
								}
							}
						}
						// Open braces
						if curr == 91 || curr == 123 {
							// if found before done with this search
							// break array search scope
							if found {
								offset = i
								braceType = curr
								currentPath = path[k+1]
								break
							} else {
								level++
								continue
							}
						}
						if curr == 93 || curr == 125 {
							// if level is less than 1 it mean index not in this array.
							if level < 2 {
								return -1, -1, -1, errIndexOutOfRange()
							}
							level--
							continue
						}
					}
				}
				if !found {
					return -1, -1, -1, errIndexOutOfRange()
				}
				// Check true for column char again for keep same with first declaration.
				isJSONChar[58] = true
			}
		} else {
			// KEY SEARCH SCOPE
			// main in quote flag for determine what is in quote and what is not.
			inQuote := false
			// Key found flag.
			found := false
			// Key start index.
			start := 0
			// Key end index.
			end := 0
			// Current level.
			level := k
			// Not interested with comma in this search
			isJSONChar[44] = false
			for i := offset; i < len(json); i++ {
				// curr is current byte of reading.
				curr := json[i]
				// Just interested with json chars. Other wise continue.
				if !isJSONChar[curr] {
					continue
				}
				// If current byte is quote
				if curr == 34 {
					// If key found no need to determine start and end points.
					if found {
						continue
					}
					// If level not same as path level no need to determine start and end points.
					if level != k+1 {
						continue
					}
					// escape char control algorithm
					for n := i - 1; n > -1; n-- {
						if json[n] != 92 {
							if (i-n)&1 != 0 {
								inQuote = !inQuote
								break
							} else {
								goto cont
							}
						}
						continue
					}
					// If starting new quote that means key starts here
					if inQuote {
						start = i + 1
						continue
					}
					// if quote ends that means key ends here
					end = i
				cont:
					continue
				}
				if inQuote {
					continue
				} else {
					// same level with path
					if level == k+1 {
						// column
						if curr == 58 {
							// comp between current path and key
							// length comp between current path and key
							if len(currentPath) == end-start {
								same := true
								// compare all elements
								for j := 0; j < len(currentPath); j++ {
									if currentPath[j] != json[start+j] {
										same = false
										break
									} else {
										continue
									}
								}
								if same {
									offset = i + 1
									found = true
									// if it is the last path element break
									// and include comma character to json chars.
									if k == len(path)-1 {
										keyStart = start
										break
									} else {
										continue
									}
								}
							}
							// Include comma character to json chars for jump function
							isJSONChar[44] = true
							// exclude column character to json chars for jump function
							isJSONChar[58] = false
							// exclude space character to json chars for jump function
							// jump function start :{} -> ,
							// it is fast travel from column to comma
							// first we need keys
							// for this purpose skipping values.
							// Only need value if key is correct
							innerLevel := level
							for j := i; j < len(json); j++ {
								// curr is current byte of reading.
								curr := json[j]
								// Just interested with json chars. Other wise continue.
								if !isJSONChar[curr] {
									continue
								}
								// Quote
								if curr == 34 {
									// check before char it might be escape char.
									// escape char control algorithm
									for n := j - 1; n > -1; n-- {
										if json[n] != 92 {
											if (j-1-n)%2 == 0 {
												inQuote = !inQuote
												break
											} else {
												break
											}
										}
										continue
									}
									continue
								}
								if inQuote {
									continue
								} else {
									// This brace conditions for level trace
									// it is necessary to keep level value correct
									if curr == 91 || curr == 123 {
										innerLevel++
										continue
									}
									if curr == 93 || curr == 125 {
										if innerLevel < k+1 {
											return -1, -1, -1, errKeyNotFound(currentPath)
										}
										innerLevel--
										continue
									}
									// comma
									if curr == 44 {
										// level same with path
										if innerLevel == k+1 {
											// jump i to j
											i = j
											break
										} else {
											continue
										}
									}
									continue
								}

							}
							// exclude comma character to json chars, jump func is ending.
							isJSONChar[44] = false
							// Include column character to json chars, jump func is ending.
							isJSONChar[58] = true
							// Include space character to json chars, jump func is ending.
							continue
						}
					}
					// open square brace
					if curr == 91 {
						// if found and new brace is square brace than
						// next search is array search break loop and
						// update the current path
						if found {
							offset = i
							braceType = curr
							currentPath = path[k+1]
							break
						} else {
							level++
							continue
						}
					}
					// open curly brace
					if curr == 123 {
						// if found and new brace is curly brace than
						// next search is key search continue with this loop and
						// update the current path
						// close found flag for next search.
						if found {
							k++
							currentPath = path[k]
							found = false
						}
						level++
						continue
					}
					// Close brace
					if curr == 93 || curr == 125 {
						if level < k+1 {
							return -1, -1, -1, errKeyNotFound(currentPath)
						}
						level--
						continue
					}
				}
			}
			// key not found return error
			if !found {
				return -1, -1, -1, errKeyNotFound(currentPath)
			}
			// Include comma character to json chars to restore original.
			isJSONChar[44] = true
			// Include space character to json chars to restore original.
		}
	}
	// this means not search operation has take place
	// it must be some kinda error or bad format
	if offset == 0 {
		return -1, -1, -1, errBadJSON(0)
	}
	// skip spaces from top.
	for space(json[offset]) {
		// json length overflow control
		if offset > len(json)-1 {
			return -1, -1, -1, errBadJSON(offset)
		}
		offset++
		continue
	}
	if justStart {
		return keyStart, offset, 0, nil
	}
	// If value starts with open braces
	if json[offset] == 91 || json[offset] == 123 {
		// main level indicator.
		level := 0
		// Quote check flag
		inQuote := false
		for i := offset; i < len(json); i++ {
			// curr is current byte of reading.
			curr := json[i]
			// Just interested with json chars. Other wise continue.
			if !isJSONChar[curr] {
				continue
			}
			if curr == 34 {
				// check before char it might be escape char.
				// escape char control algorithm
				for n := i - 1; n > -1; n-- {
					if json[n] != 92 {
						if (i-n)%2 != 0 {
							inQuote = !inQuote
							break
						} else {
							break
						}
					}
					continue
				}
				continue
			}
			if inQuote {
				continue
			} else {
				if curr == 91 || curr == 123 {
					level++
					continue
				}
				if curr == 93 || curr == 125 {
					if level == 1 {
						return keyStart, offset, i + 1, nil
					}
					level--
					continue
				}
				continue
			}
		}
	} else {
		// If value starts with quote
		if json[offset] == 34 {
			for i := offset + 1; i < len(json); i++ {
				curr := json[i]
				if curr == 92 {
					i++
					continue
				} else {
					// find ending quote
					if curr == 34 {
						// just interested with json chars. Other wise continue.
						return keyStart, offset + 1, i, nil
					}
				}
			}
		} else {
			for i := offset; i < len(json); i++ {
				curr := json[i]
				// if current byte is space or one of these ',' ']' '}' this means end of the value is i
				if space(curr) || curr == 44 || curr == 93 || curr == 125 {
					if offset == i {
						return -1, -1, -1, errEmptyArray()
					}
					return keyStart, offset, i, nil
				}
			}
		}
	}
	// This means not search operation has take place
	// not any formatting operation has take place
	// it must be some kinda bad JSON format
	return -1, -1, -1, errBadJSON(offset)
}
"#

go_source inter_get r#"package jin

import (
	"strconv"
)

// Get returns the value that path has pointed.
// It stripes quotation marks from string values.
// Path can point anything, a key-value pair, a value, an array, an object.
// Path variable can not be null,
// otherwise it will provide an error message.
func Get(json []byte, path ...string) ([]byte, error) {
	if len(path) == 0 {
		return json, nil
	}
	_, start, end, err := core(json, false, path...)
	if err != nil {
		return nil, err
	}
	return json[start:end], err
}

// GetString is a variation of Get() func.
// GetString returns the value that path has pointed as string.
func GetString(json []byte, path ...string) (string, error) {
	val, err := Get(json, path...)
	if err != nil {
		return "", err
	}
	return string(val), err
}

// GetInt is a variation of Get() func.
// GetInt returns the value that path has pointed as integer.
// returns an error message if the value to be returned cannot be converted to an integer
func GetInt(json []byte, path ...string) (int, error) {
	val, err := GetString(json, path...)
	if err != nil {
		return -1, err
	}
	intVal, err := strconv.Atoi(val)
	if err != nil {
		return -1, errIntegerParse(val)
	}
	return intVal, nil
}

// GetFloat is a variation of Get() func.
// GetFloat returns the value that path has pointed as float.
// returns an error message if the value to be returned cannot be converted to an float
func GetFloat(json []byte, path ...string) (float64, error) {
	val, err := GetString(json, path...)
	if err != nil {
		return -1, err
	}
	floatVal, err := strconv.ParseFloat(val, 64)
	if err != nil {
		return -1, errFloatParse(val)
	}
	return floatVal, nil
}

// GetBool is a variation of Get() func.
// GetBool returns the value that path has pointed as boolean.
// returns an error message if the value to be returned cannot be converted to an boolean
func GetBool(json []byte, path ...string) (bool, error) {
	val, err := GetString(json, path...)
	if err != nil {
		return false, err
	}
	if val == "true" {
		return true, nil
	}
	if val == "false" {
		return false, nil
	}
	return false, errBoolParse(val)
}

// GetStringArray is a variation of Get() func.
// GetStringArray returns the value that path has pointed as string slice.
// returns an error message if the value to be returned cannot be converted to an string slice.
func GetStringArray(json []byte, path ...string) ([]string, error) {
	val, err := GetString(json, path...)
	if err != nil {
		return nil, err
	}
	lena := len(val)
	if lena < 2 {
		return nil, errStringArrayParse(val)
	}
	if val[0] == 91 && val[lena-1] == 93 {
		arr := ParseArray(val)
		if arr == nil {
			return nil, errStringArrayParse(val)
		}
		return arr, nil
	}
	return nil, errStringArrayParse(val)
}

// GetIntArray is a variation of Get() func.
// GetIntArray returns the value that path has pointed as integer slice.
// returns an error message if the value to be returned cannot be converted to an integer slice.
func GetIntArray(json []byte, path ...string) ([]int, error) {
	val, err := GetString(json, path...)
	if err != nil {
		return nil, err
	}
	lena := len(val)
	if lena < 2 {
		return nil, errIntegerArrayParse(val)
	}
	if val[0] == 91 && val[lena-1] == 93 {
		newArray := make([]int, 0, 16)
		start := 1
		inQuote := false
		level := 0
		for i := 0; i < len(val); i++ {
			curr := val[i]
			if curr == 92 {
				i++
				continue
			}
			if curr == 34 {
				inQuote = !inQuote
				continue
			}
			if inQuote {
				continue
			} else {
				if curr == 91 || curr == 123 {
					level++
				}
				if curr == 93 || curr == 125 {
					level--
					if curr == 93 {
						if level == 0 {
							element := val[start:i]
							num, err := strconv.Atoi(cleanValueString(element))
							if err != nil {
								return nil, errIntegerParse(cleanValueString(element))
							}
							newArray = append(newArray, num)
							break
						}
					}
				}
				if level == 1 {
					if curr == 44 {
						element := val[start:i]
						num, err := strconv.Atoi(cleanValueString(element))
						if err != nil {
							return nil, errIntegerParse(cleanValueString(element))
						}
						newArray = append(newArray, num)
						start = i + 1
						continue
					}
				}
			}
		}
		return newArray, nil
	}
	return nil, errIntegerArrayParse(val)
}

// GetFloatArray is a variation of Get() func.
// GetFloatArray returns the value that path has pointed as float slice.
// returns an error message if the value to be returned cannot be converted to an float slice.
func GetFloatArray(json []byte, path ...string) ([]float64, error) {
	val, err := GetString(json, path...)
	if err != nil {
		return nil, err
	}
	lena := len(val)
	if lena < 2 {
		return nil, errFloatArrayParse(val)
	}
	if val[0] == 91 && val[lena-1] == 93 {
		newArray := make([]float64, 0, 16)
		start := 1
		inQuote := false
		level := 0
		for i := 0; i < len(val); i++ {
			curr := val[i]
			if curr == 92 {
				i++
				continue
			}
			if curr == 34 {
				inQuote = !inQuote
				continue
			}
			if inQuote {
				continue
			} else {
				if curr == 91 || curr == 123 {
					level++
				}
				if curr == 93 || curr == 125 {
					level--
					if curr == 93 {
						if level == 0 {
							element := val[start:i]
							num, err := strconv.ParseFloat(cleanValueString(element), 64)
							if err != nil {
								return nil, errFloatParse(cleanValueString(element))
							}
							newArray = append(newArray, num)
							break
						}
					}
				}
				if level == 1 {
					if curr == 44 {
						element := val[start:i]
						num, err := strconv.ParseFloat(cleanValueString(element), 64)
						if err != nil {
							return nil, errFloatParse(cleanValueString(element))
						}
						newArray = append(newArray, num)
						start = i + 1
						continue
					}
				}
			}
		}
		return newArray, nil
	}
	return nil, errFloatArrayParse(val)
}

// GetBoolArray is a variation of Get() func.
// GetBoolArray returns the value that path has pointed as boolean slice.
// returns an error message if the value to be returned cannot be converted to an boolean slice.
func GetBoolArray(json []byte, path ...string) ([]bool, error) {
	val, err := GetString(json, path...)
	if err != nil {
		return nil, err
	}
	lena := len(val)
	if lena < 2 {
		return nil, errBoolArrayParse(val)
	}
	if val[0] == 91 && val[lena-1] == 93 {
		newArray := make([]bool, 0, 16)
		start := 1
		inQuote := false
		level := 0
		for i := 0; i < len(val); i++ {
			curr := val[i]
			if curr == 92 {
				i++
				continue
			}
			if curr == 34 {
				inQuote = !inQuote
				continue
			}
			if inQuote {
				continue
			} else {
				if curr == 91 || curr == 123 {
					level++
				}
				if curr == 93 || curr == 125 {
					level--
					if curr == 93 {
						if level == 0 {
							element := val[start:i]
							element = cleanValueString(element)
							if element == "true" || element == "false" {
								if element == "true" {
									newArray = append(newArray, true)
								} else {
									newArray = append(newArray, false)
								}
							} else {
								return nil, errBoolParse(cleanValueString(element))
							}
							break
						}
					}
				}
				if level == 1 {
					if curr == 44 {
						element := val[start:i]
						element = cleanValueString(element)
						if element == "true" || element == "false" {
							if element == "true" {
								newArray = append(newArray, true)
							} else {
								newArray = append(newArray, false)
							}
						} else {
							return nil, errBoolParse(element)
						}
						start = i + 1
						continue
					}
				}
			}
		}
		return newArray, nil
	}
	return nil, errBoolArrayParse(val)
}

// GetKeys not tested yet
// Gets all keys that path has pointed.
func GetKeys(json []byte, path ...string) ([]string, error) {
	var keys []string
	if string(json) == "{}" {
		return nil, errEmpty()
	}
	var start int
	var err error
	if len(path) == 0 {
		for space(json[start]) {
			if start > len(json)-1 {
				return nil, errBadJSON(start)
			}
			start++
			continue
		}
	} else {
		_, start, _, err = core(json, true, path...)
		if err != nil {
			return nil, err
		}
	}
	chars := []byte{34, 44, 58, 91, 93, 123, 125}
	isJSONChar := make([]bool, 256)
	for _, v := range chars {
		isJSONChar[v] = true
	}
	if json[start] == 123 {
		keyStart := 0
		keyEnd := 0
		inQuote := false
		level := 0
		for i := start; i < len(json); i++ {
			curr := json[i]
			if !isJSONChar[curr] {
				continue
			}
			if curr == 34 {
				if inQuote {
					for n := i - 1; n > -1; n-- {
						if json[n] != 92 {
							if (i-n)%2 != 0 {
								inQuote = !inQuote
								break
							} else {
								goto cont
							}
						}
						continue
					}
				} else {
					inQuote = !inQuote
				}
				if inQuote {
					keyStart = i
					continue
				}
				keyEnd = i
			cont:
				continue
			}
			if inQuote {
				continue
			} else {
				if curr == 91 || curr == 123 {
					level++
					continue
				}
				if curr == 93 || curr == 125 {
					if level == 1 {
						break
					}
					level--
					continue
				}
				if curr == 58 {
					if level == 1 {
						key := json[keyStart+1 : keyEnd]
						keys = append(keys, string(key))
					}
					continue
				}
			}
		}
		return keys, nil
	}
	return nil, errObjectExpected()
}

// GetValues not tested yet
// Gets all values that path has pointed.
func GetValues(json []byte, path ...string) ([]string, error) {
	var values []string
	if string(json) == "{}" {
		return nil, errEmpty()
	}
	var start int
	var err error
	if len(path) == 0 {
		for space(json[start]) {
			if start > len(json)-1 {
				return nil, errBadJSON(start)
			}
			start++
			continue
		}
	} else {
		_, start, _, err = core(json, true, path...)
		if err != nil {
			return nil, err
		}
	}
	chars := []byte{34, 44, 58, 91, 93, 123, 125}
	isJSONChar := make([]bool, 256)
	for _, v := range chars {
		isJSONChar[v] = true
	}
	if json[start] == 123 {
		inQuote := false
		level := 0
		for i := start; i < len(json); i++ {
			curr := json[i]
			if !isJSONChar[curr] {
				continue
			}
			if curr == 34 {
				if inQuote {
					for n := i - 1; n > -1; n-- {
						if json[n] != 92 {
							if (i-n)%2 != 0 {
								inQuote = !inQuote
								break
							} else {
								goto cont
							}
						}
						continue
					}
				} else {
					inQuote = !inQuote
				}
			cont:
				continue
			}
			if inQuote {
				continue
			} else {
				if curr == 91 || curr == 123 {
					level++
					continue
				}
				if curr == 93 || curr == 125 {
					if level == 1 {
						value := cleanValueString(string(json[start:i]))
						values = append(values, value)
						break
					}
					level--
					continue
				}
				if curr == 58 {
					if level == 1 {
						start = i + 1
					}
					continue
				}
				if curr == 44 {
					if level == 1 {
						value := cleanValueString(string(json[start:i]))
						values = append(values, value)
						start = i + 1
					}
				}
			}
		}
		return values, nil
	}
	return nil, errObjectExpected()
}

// GetKeysValues not tested yet
// Gets all keys and values that path has pointed.
func GetKeysValues(json []byte, path ...string) ([]string, []string, error) {
	var values []string
	var keys []string
	if string(json) == "{}" {
		return nil, nil, errEmpty()
	}
	var start int
	var err error
	if len(path) == 0 {
		for space(json[start]) {
			if start > len(json)-1 {
				return nil, nil, errBadJSON(start)
			}
			start++
			continue
		}
	} else {
		_, start, _, err = core(json, true, path...)
		if err != nil {
			return nil, nil, err
		}
	}
	chars := []byte{34, 44, 58, 91, 93, 123, 125}
	isJSONChar := make([]bool, 256)
	for _, v := range chars {
		isJSONChar[v] = true
	}
	if json[start] == 123 {
		keyStart := 0
		keyEnd := 0
		inQuote := false
		level := 0
		for i := start; i < len(json); i++ {
			curr := json[i]
			if !isJSONChar[curr] {
				continue
			}
			if curr == 34 {
				if inQuote {
					for n := i - 1; n > -1; n-- {
						if json[n] != 92 {
							if (i-n)%2 != 0 {
								inQuote = !inQuote
								break
							} else {
								goto cont
							}
						}
						continue
					}
				} else {
					inQuote = !inQuote
				}
				if inQuote {
					keyStart = i
					continue
				}
				keyEnd = i
			cont:
				continue
			}
			if inQuote {
				continue
			} else {
				if curr == 91 || curr == 123 {
					level++
					continue
				}
				if curr == 93 || curr == 125 {
					if level == 1 {
						value := cleanValueString(string(json[start:i]))
						values = append(values, value)
						break
					}
					level--
					continue
				}
				if curr == 58 {
					if level == 1 {
						key := json[keyStart+1 : keyEnd]
						keys = append(keys, string(key))
						start = i + 1
					}
					continue
				}
				if curr == 44 {
					if level == 1 {
						value := cleanValueString(string(json[start:i]))
						values = append(values, value)
						start = i + 1
					}
				}
			}
		}
		return keys, values, nil
	}
	return nil, nil, errObjectExpected()
}

// GetMap Gets all keys and values pair with string to string map.
func GetMap(json []byte, path ...string) (map[string]string, error) {
	if string(json) == "[]" || string(json) == "{}" {
		return nil, nil
	}
	start, end, err := getStartEnd(json, path...)
	if err != nil {
		return nil, err
	}
	mainMap := make(map[string]string)
	if json[start] == 123 && json[end] == 125 {
		err = IterateKeyValue(json, func(key, val []byte) (bool, error) {
			mainMap[string(key)] = string(val)
			return true, nil
		}, path...)
		if err != nil {
			return nil, err
		}
		return mainMap, nil
	}
	if json[start] == 91 && json[end] == 93 {
		count := 0
		err = IterateArray(json, func(val []byte) (bool, error) {
			mainMap[strconv.Itoa(count)] = string(val)
			count++
			return true, nil
		}, path...)
		if err != nil {
			return nil, err
		}
		return mainMap, nil
	}
	return nil, errBadJSON(start)
}

// GetAll not tested yet
// GetAll gets all values of path+key has pointed.
func GetAll(json []byte, keys []string, path ...string) ([]string, error) {
	var err error
	var val string
	results := make([]string, 0, len(keys))
	for _, k := range keys {
		val, err = GetString(json, append(path, k)...)
		if err != nil {
			return nil, err
		}
		results = append(results, val)
	}
	return results, nil
}

// GetAllMap not tested yet
// GetAllMap gets all values of path+key has pointed as string to string map.
func GetAllMap(json []byte, keys []string, path ...string) (map[string]string, error) {
	var err error
	var val string
	results := make(map[string]string)
	for _, k := range keys {
		val, err = GetString(json, append(path, k)...)
		if err != nil {
			return nil, err
		}
		results[k] = val
	}
	return results, nil
}
"#

go_source inter_set r#"package jin

import (
	"strconv"
)

// Set sets the value that path has pointed.
// Path can point anything, a key-value pair, a value, an array, an object.
// Path variable can not be null,
// otherwise it will provide an error message.
func Set(json []byte, newValue []byte, path ...string) ([]byte, error) {
	if len(path) == 0 {
		return json, errNullPath()
	}
	_, start, end, err := core(json, false, path...)
	if err != nil {
		return json, err
	}
	if json[start-1] == 34 && json[end] == 34 {
		return replace(json, newValue, start-1, end+1), nil
	}
	return replace(json, newValue, start, end), nil
}

// SetString is a variation of Set() func.
// SetString takes the set value as string.
func SetString(json []byte, newValue string, path ...string) ([]byte, error) {
	return Set(json, []byte(formatType(newValue)), path...)
}

// SetInt is a variation of Set() func.
// SetInt takes the set value as integer.
func SetInt(json []byte, newValue int, path ...string) ([]byte, error) {
	return Set(json, []byte(strconv.Itoa(newValue)), path...)
}

// SetFloat is a variation of Set() func.
// SetFloat takes the set value as float64.
func SetFloat(json []byte, newValue float64, path ...string) ([]byte, error) {
	return Set(json, []byte(strconv.FormatFloat(newValue, 'f', -1, 64)), path...)
}

// SetBool is a variation of Set() func.
// SetBool takes the set value as boolean.
func SetBool(json []byte, newValue bool, path ...string) ([]byte, error) {
	if newValue {
		return Set(json, []byte("true"), path...)
	}
	return Set(json, []byte("false"), path...)
}

// SetKey sets the key value of key-value pair that path has pointed.
// Path must point to an object.
// otherwise it will provide an error message.
// Path variable can not be null,
func SetKey(json []byte, newKey string, path ...string) ([]byte, error) {
	if len(newKey) == 0 {
		return json, errNullKey()
	}
	if len(path) == 0 {
		return json, errNullPath()
	}
	var err error
	var keyStart int
	var start int
	newPath := make([]string, len(path))
	copy(newPath, path[:len(path)-1])
	newPath[len(newPath)-1] = newKey
	_, _, _, err = core(json, false, newPath...)
	if err != nil {
		if ErrEqual(err, ErrCodeKeyNotFound) {
			keyStart, start, _, err = core(json, false, path...)
			if err != nil {
				return json, err
			}
			for i := keyStart; i < start; i++ {
				curr := json[i]
				if curr == 92 {
					i++
				}
				if curr == 34 {
					return replace(json, []byte(newKey), keyStart, i), nil
				}
			}
			return json, errBadJSON(keyStart)
		}
		return json, err
	}
	return json, errBadJSON(keyStart)
}

// Store sets or adds a new value to the body
// like a real json store event
func Store(json []byte, key string, value []byte, path ...string) ([]byte, error) {
	_, start, end, err := core(json, false, append(path, key)...)
	if err != nil {
		if ErrEqual(err, ErrCodeKeyNotFound) {
			return AddKeyValue(json, key, value, path...)
		}
		return json, err
	}
	if json[start-1] == 34 && json[end] == 34 {
		return replace(json, value, start-1, end+1), nil
	}
	return replace(json, value, start, end), nil
}

// StoreString is a variation of Store() func.
// StoreString takes the Store value as string.
func StoreString(json []byte, key string, newValue string, path ...string) ([]byte, error) {
	return Store(json, key, []byte(formatType(newValue)), path...)
}

// StoreInt is a variation of Store() func.
// StoreInt takes the Store value as integer.
func StoreInt(json []byte, key string, newValue int, path ...string) ([]byte, error) {
	return Store(json, key, []byte(strconv.Itoa(newValue)), path...)
}

// StoreFloat is a variation of Store() func.
// StoreFloat takes the Store value as float64.
func StoreFloat(json []byte, key string, newValue float64, path ...string) ([]byte, error) {
	return Store(json, key, []byte(strconv.FormatFloat(newValue, 'f', -1, 64)), path...)
}

// StoreBool is a variation of Store() func.
// StoreBool takes the Store value as boolean.
func StoreBool(json []byte, key string, newValue bool, path ...string) ([]byte, error) {
	if newValue {
		return Store(json, key, []byte("true"), path...)
	}
	return Store(json, key, []byte("false"), path...)
}
"#

go_source inter_add r#"package jin

import "strconv"

// AddKeyValue adds a key-value pair to an object.
// Path variable must point to an object,
// otherwise it will provide an error message.
func AddKeyValue(json []byte, key string, value []byte, path ...string) ([]byte, error) {
	if value == nil {
		return AddKeyValue(json, key, []byte("null"), path...)
	}
	var start int
	var end int
	var err error
	if len(json) < 2 {
		return json, errBadJSON(0)
	}
	if len(path) == 0 {
		for i := 0; i < len(json); i++ {
			if !space(json[i]) {
				if json[i] == 123 {
					start = i
					if i == len(json)-1 {
						return json, errBadJSON(i)
					}
					break
				} else {
					return json, errObjectExpected()
				}
			}
		}
		for i := len(json) - 1; i > -1; i-- {
			if !space(json[i]) {
				if json[i] == 125 {
					end = i + 1
					if i == 0 {
						return json, errBadJSON(i)
					}
					break
				} else {
					return json, errObjectExpected()
				}
			}
		}
	} else {
		_, start, end, err = core(json, false, path...)
		if err != nil {
			return json, err
		}
	}
	if json[start] == 123 && json[end-1] == 125 {
		empty := true
		for i := start + 1; i < end-1; i++ {
			if !space(json[i]) {
				empty = false
			}
		}
		if empty {
			val := []byte(`"` + key + `":` + string(value))
			json = replace(json, val, end-1, end-1)
			return json, nil
		}
		path = append(path, key)
		_, _, _, err = core(json, false, path...)
		if err != nil {
			if ErrEqual(err, ErrCodeKeyNotFound) {
				val := []byte(`,"` + key + `":` + string(value))
				json = replace(json, val, end-1, end-1)
				return json, nil
			}
			return json, err
		}
		return json, errKeyAlreadyExist(key)
	}
	return json, errObjectExpected()
}

// Add adds a value to an array.
// Path variable must point to an array,
// otherwise it will provide an error message.
func Add(json []byte, value []byte, path ...string) ([]byte, error) {
	var start int
	var end int
	var err error
	if len(json) < 2 {
		return json, errBadJSON(0)
	}
	if len(path) == 0 {
		for i := 0; i < len(json); i++ {
			if !space(json[i]) {
				if json[i] == 91 {
					start = i
					if i == len(json)-1 {
						return json, errBadJSON(i)
					}
					break
				} else {
					return json, errArrayExpected()
				}
			}
		}
		for i := len(json) - 1; i > -1; i-- {
			if !space(json[i]) {
				if json[i] == 93 {
					end = i + 1
					if i == 0 {
						return json, errBadJSON(i)
					}
					break
				} else {
					return json, errArrayExpected()
				}
			}
		}
	} else {
		_, start, end, err = core(json, false, path...)
		if err != nil {
			return json, err
		}
	}
	if json[start] == 91 && json[end-1] == 93 {
		empty := true
		for i := start + 1; i < end-1; i++ {
			if !space(json[i]) {
				empty = false
			}
		}
		if empty {
			json = replace(json, value, end-1, end-1)
			return json, nil
		}
		val := make([]byte, len(value)+1)
		val[0] = 44
		copy(val[1:], value)
		json = replace(json, val, end-1, end-1)
		return json, nil
	}
	return json, errArrayExpected()
}

// Insert inserts a value to an array.
// Path variable must point to an array,
// otherwise it will provide an error message.
func Insert(json []byte, index int, value []byte, path ...string) ([]byte, error) {
	var start int
	var end int
	var err error
	if len(path) == 0 {
		for i := 0; i < len(json); i++ {
			if !space(json[i]) {
				if json[i] == 91 {
					start = i
					if i == len(json)-1 {
						return json, errBadJSON(i)
					}
					break
				} else {
					return json, errArrayExpected()
				}
			}
		}
		for i := len(json) - 1; i > -1; i-- {
			if !space(json[i]) {
				if json[i] == 93 {
					end = i + 1
					if i == 0 {
						return json, errBadJSON(i)
					}
					break
				} else {
					return json, errArrayExpected()
				}
			}
		}
	} else {
		_, start, end, err = core(json, false, path...)
		if err != nil {
			return json, err
		}
	}
	if json[start] != 91 || json[end-1] != 93 {
		return json, errArrayExpected()
	}
	_, start, end, err = core(json, false, append(path, strconv.Itoa(index))...)
	if err != nil {
		return json, err
	}
	if json[start-1] == 34 {
		start--
	}
	if json[end] == 34 {
		end++
	}
	var startEdge int
	var endEdge int
	for i := start - 1; i > 0; i-- {
		if !space(json[i]) {
			startEdge = i
			break
		}
	}
	for i := end; i < len(json); i++ {
		if !space(json[i]) {
			endEdge = i
			break
		}
	}
	if (json[startEdge] == 91 || json[startEdge] == 123) && json[startEdge]+2 == json[endEdge] {
		val := make([]byte, 0, len(value)+1)
		val = append(val, value...)
		val = append(val, 44)
		json = replace(json, val, start, start)
		return json, nil
	}
	if json[endEdge] == 44 {
		val := make([]byte, 0, len(value)+1)
		val = append(val, value...)
		val = append(val, 44)
		json = replace(json, val, start, start)
		return json, nil
	}
	if json[startEdge] == 44 {
		val := make([]byte, 0, len(value)+1)
		val = append(val, 44)
		val = append(val, value...)
		json = replace(json, val, start-1, start-1)
		return json, nil
	}
	return json, errBadJSON(start)
}

// AddKeyValueString is a variation of AddKeyValue() func.
// Type of new value must be a string.
func AddKeyValueString(json []byte, key, value string, path ...string) ([]byte, error) {
	if len(key) == 0 {
		return nil, errNullKey()
	}
	return AddKeyValue(json, key, []byte(formatType(value)), path...)
}

// AddKeyValueInt is a variation of AddKeyValue() func.
// Type of new value must be an integer.
func AddKeyValueInt(json []byte, key string, value int, path ...string) ([]byte, error) {
	if len(key) == 0 {
		return json, errNullKey()
	}
	return AddKeyValue(json, key, []byte(strconv.Itoa(value)), path...)
}

// AddKeyValueUint is a variation of AddKeyValue() func.
// Type of new value must be an integer.
func AddKeyValueUint(json []byte, key string, value uint, path ...string) ([]byte, error) {
	if len(key) == 0 {
		return json, errNullKey()
	}
	return AddKeyValue(json, key, []byte(strconv.FormatUint(uint64(value), 64)), path...)
}

// AddKeyValueInt32 is a variation of AddKeyValue() func.
// Type of new value must be an int32.
func AddKeyValueInt32(json []byte, key string, value int32, path ...string) ([]byte, error) {
	if len(key) == 0 {
		return json, errNullKey()
	}
	return AddKeyValue(json, key, []byte(strconv.FormatInt(int64(value), 32)), path...)
}

// AddKeyValueInt64 is a variation of AddKeyValue() func.
// Type of new value must be an int64.
func AddKeyValueInt64(json []byte, key string, value int64, path ...string) ([]byte, error) {
	if len(key) == 0 {
		return json, errNullKey()
	}
	return AddKeyValue(json, key, []byte(strconv.FormatInt(value, 64)), path...)
}

// AddKeyValueUint32 is a variation of AddKeyValue() func.
// Type of new value must be an uint32.
func AddKeyValueUint32(json []byte, key string, value uint32, path ...string) ([]byte, error) {
	if len(key) == 0 {
		return json, errNullKey()
	}
	return AddKeyValue(json, key, []byte(strconv.FormatUint(uint64(value), 32)), path...)
}

// AddKeyValueUint64 is a variation of AddKeyValue() func.
// Type of new value must be an uint64.
func AddKeyValueUint64(json []byte, key string, value uint64, path ...string) ([]byte, error) {
	if len(key) == 0 {
		return json, errNullKey()
	}
	return AddKeyValue(json, key, []byte(strconv.FormatUint(value, 64)), path...)
}

// AddKeyValueFloat is a variation of AddKeyValue() func.
// Type of new value must be a float64.
func AddKeyValueFloat(json []byte, key string, value float64, path ...string) ([]byte, error) {
	if len(key) == 0 {
		return json, errNullKey()
	}
	return AddKeyValue(json, key, []byte(strconv.FormatFloat(value, 'f', -1, 64)), path...)
}

// AddKeyValueBool is a variation of AddKeyValue() func.
// Type of new value must be a boolean.
func AddKeyValueBool(json []byte, key string, value bool, path ...string) ([]byte, error) {
	if len(key) == 0 {
		return json, errNullKey()
	}
	if value {
		return AddKeyValue(json, key, []byte("true"), path...)
	}
	return AddKeyValue(json, key, []byte("false"), path...)
}

// AddString is a variation of Add() func.
// Type of new value must be an string.
func AddString(json []byte, value string, path ...string) ([]byte, error) {
	return Add(json, []byte(formatType(value)), path...)
}

// AddInt is a variation of Add() func.
// Type of new value must be an integer.
func AddInt(json []byte, value int, path ...string) ([]byte, error) {
	return Add(json, []byte(strconv.Itoa(value)), path...)
}

// AddInt32 is a variation of Add() func.
// Type of new value must be an integer.
func AddInt32(json []byte, value int32, path ...string) ([]byte, error) {
	return Add(json, []byte(strconv.FormatInt(int64(value), 32)), path...)
}

// AddInt64 is a variation of Add() func.
// Type of new value must be an integer.
func AddInt64(json []byte, value int64, path ...string) ([]byte, error) {
	return Add(json, []byte(strconv.FormatInt(value, 64)), path...)
}

// AddUint is a variation of Add() func.
// Type of new value must be an integer.
func AddUint(json []byte, value uint, path ...string) ([]byte, error) {
	return Add(json, []byte(strconv.FormatUint(uint64(value), 64)), path...)
}

// AddUint32 is a variation of Add() func.
// Type of new value must be an integer.
func AddUint32(json []byte, value uint32, path ...string) ([]byte, error) {
	return Add(json, []byte(strconv.FormatUint(uint64(value), 32)), path...)
}

// AddUint64 is a variation of Add() func.
// Type of new value must be an integer.
func AddUint64(json []byte, value uint64, path ...string) ([]byte, error) {
	return Add(json, []byte(strconv.FormatUint(value, 64)), path...)
}

// AddFloat is a variation of Add() func.
// Type of new value must be an float64.
func AddFloat(json []byte, value float64, path ...string) ([]byte, error) {
	return Add(json, []byte(strconv.FormatFloat(value, 'f', -1, 64)), path...)
}

// AddBool is a variation of Add() func.
// Type of new value must be an boolean.
func AddBool(json []byte, value bool, path ...string) ([]byte, error) {
	if value {
		return Add(json, []byte("true"), path...)
	}
	return Add(json, []byte("false"), path...)
}

// InsertString is a variation of Insert() func.
// Type of new value must be an string.
func InsertString(json []byte, index int, value string, path ...string) ([]byte, error) {
	if index < 0 {
		return nil, errIndexOutOfRange()
	}
	return Insert(json, index, []byte(formatType(value)), path...)
}

// InsertInt is a variation of Insert() func.
// Type of new value must be an integer.
func InsertInt(json []byte, index, value int, path ...string) ([]byte, error) {
	if index < 0 {
		return json, errIndexOutOfRange()
	}
	return Insert(json, index, []byte(strconv.Itoa(value)), path...)
}

// InsertInt32 is a variation of Insert() func.
// Type of new value must be an integer.
func InsertInt32(json []byte, index int, value int32, path ...string) ([]byte, error) {
	if index < 0 {
		return json, errIndexOutOfRange()
	}
	return Insert(json, index, []byte(strconv.FormatInt(int64(value), 32)), path...)
}

// InsertInt64 is a variation of Insert() func.
// Type of new value must be an integer.
func InsertInt64(json []byte, index int, value int64, path ...string) ([]byte, error) {
	if index < 0 {
		return json, errIndexOutOfRange()
	}
	return Insert(json, index, []byte(strconv.FormatInt(value, 64)), path...)
}

// InsertUint is a variation of Insert() func.
// Type of new value must be an integer.
func InsertUint(json []byte, index int, value uint, path ...string) ([]byte, error) {
	if index < 0 {
		return json, errIndexOutOfRange()
	}
	return Insert(json, index, []byte(strconv.FormatUint(uint64(value), 64)), path...)
}

// InsertUint32 is a variation of Insert() func.
// Type of new value must be an integer.
func InsertUint32(json []byte, index int, value uint32, path ...string) ([]byte, error) {
	if index < 0 {
		return json, errIndexOutOfRange()
	}
	return Insert(json, index, []byte(strconv.FormatUint(uint64(value), 32)), path...)
}

// InsertUint64 is a variation of Insert() func.
// Type of new value must be an integer.
func InsertUint64(json []byte, index int, value uint64, path ...string) ([]byte, error) {
	if index < 0 {
		return json, errIndexOutOfRange()
	}
	return Insert(json, index, []byte(strconv.FormatUint(value, 64)), path...)
}

// InsertFloat is a variation of Insert() func.
// Type of new value must be an float64.
func InsertFloat(json []byte, index int, value float64, path ...string) ([]byte, error) {
	if index < 0 {
		return json, errIndexOutOfRange()
	}
	return Insert(json, index, []byte(strconv.FormatFloat(value, 'f', -1, 64)), path...)
}

// InsertBool is a variation of Insert() func.
// Type of new value must be an boolean.
func InsertBool(json []byte, index int, value bool, path ...string) ([]byte, error) {
	if index < 0 {
		return json, errIndexOutOfRange()
	}
	if value {
		return Insert(json, index, []byte("true"), path...)
	}
	return Insert(json, index, []byte("false"), path...)
}
"#

go_source inter_delete r#"package jin

// Delete can delete any key-value pair, array value, array, object.
// Path value must be provided,
// otherwise it will provide an error message.
func Delete(json []byte, path ...string) ([]byte, error) {
	lenp := len(path)
	if lenp == 0 {
		return json, errNullPath()
	}
	ks, s, e, err := core(json, false, path...)
	if err != nil {
		return json, err
	}
	start := 0
	if ks == -1 {
		start = s
	} else {
		start = ks - 1
	}
	if json[start-1] == 34 {
		start--
	}
	if json[e] == 34 {
		e++
	}
	var startEdge int
	var endEdge int
	for i := start - 1; i > 0; i-- {
		if !space(json[i]) {
			startEdge = i
			break
		}
	}
	for i := e; i < len(json); i++ {
		if !space(json[i]) {
			endEdge = i
			break
		}
	}
	if (json[startEdge] == 91 || json[startEdge] == 123) && json[startEdge]+2 == json[endEdge] {
		json = replace(json, []byte{}, start, e)
		return json, nil
	}
	if json[endEdge] == 44 {
		json = replace(json, []byte{}, start, endEdge+1)
		return json, nil
	}
	if json[startEdge] == 44 {
		json = replace(json, []byte{}, startEdge, e)
		return json, nil
	}
	return json, errBadJSON(start)
}
"#

go_source inter_type r#"package jin

import "strconv"

const (
	TypeArray   string = "array"
	TypeObject  string = "object"
	TypeString  string = "string"
	TypeBoolean string = "boolean"
	TypeNull    string = "null"
	TypeNumber  string = "number"
)

// IsObject is a type control function.
// If path points to an object it will return true, otherwise it will return false.
// In this instance 'object' means everything that has starts and ends with curly brace.
func IsObject(json []byte, path ...string) (bool, error) {
	state, _, err := typeControlCore(json, []byte{91, 123}, true, path...)
	if err != nil {
		return false, err
	}
	return state, nil
}

// IsArray is a type control function.
// If path points to an array it will return true, otherwise it will return false.
// In this instance 'array' means everything that has starts and ends with square brace.
func IsArray(json []byte, path ...string) (bool, error) {
	state, _, err := typeControlCore(json, []byte{91}, true, path...)
	if err != nil {
		return false, err
	}
	return state, nil
}

// IsValue is a type control function.
// If path points to an value it will return true, otherwise it will return false.
// In this instance 'value' means everything that has not starts and ends with any brace.
func IsValue(json []byte, path ...string) (bool, error) {
	state, _, err := typeControlCore(json, []byte{91, 123}, false, path...)
	if err != nil {
		return false, err
	}
	return state, nil
}

// GetType returns the types of value that path has point.
// possible return types 'array' | 'object' | 'string' | 'boolean' | 'null' | 'number'
func GetType(json []byte, path ...string) (string, error) {
	_, start, err := typeControlCore(json, []byte{}, false, path...)
	if err != nil {
		return "", err
	}
	switch json[start] {
	case '[':
		return TypeArray, nil
	case '{':
		return TypeObject, nil
	case '"':
		return TypeString, nil
	}
	val, err := GetString(json, path...)
	if err != nil {
		return "", err
	}
	switch val {
	case "true", "false":
		return TypeBoolean, nil
	case "null":
		return TypeNull, nil
	}
	_, err = strconv.ParseInt(val, 10, 64)
	if err == nil {
		return TypeNumber, nil
	}
	_, err = strconv.ParseFloat(val, 64)
	if err == nil {
		return TypeNumber, nil
	}
	return TypeString, nil
}

// IsEmpty is a control function.
// If path points to an value it will return 'value' string
// If path points to an array that has zero element in it,
// then it will return true, otherwise it will return false.
func IsEmpty(json []byte, path ...string) (bool, error) {
	if len(json) == 0 {
		return false, errBadJSON(0)
	}
	var start int
	var end int = len(json) - 1
	var err error
	if len(path) == 0 {
		for space(json[start]) {
			if start > len(json)-1 {
				return false, errBadJSON(start)
			}
			start++
			continue
		}
		for space(json[end]) {
			if end < 1 {
				return false, errBadJSON(end)
			}
			end--
			continue
		}
	} else {
		_, start, end, err = core(json, false, path...)
		if err != nil {
			return false, err
		}
		end--
	}
	braceStart := json[start]
	braceEnd := json[end]
	if braceStart == 91 || braceStart == 123 {
		if braceStart+2 != braceEnd {
			return false, errBadJSON(end)
		}
		for i := start + 1; i < end-1; i++ {
			if !space(json[i]) {
				return false, nil
			}
		}
	} else {
		return false, errObjectExpected()
	}
	return true, nil
}

func typeControlCore(json []byte, control []byte, equal bool, path ...string) (bool, int, error) {
	if len(json) == 0 {
		return false, -1, errBadJSON(0)
	}
	var start int
	var err error
	if len(path) == 0 {
		for space(json[start]) {
			if start > len(json)-1 {
				return false, -1, errBadJSON(start)
			}
			start++
			continue
		}
	} else {
		_, start, _, err = core(json, true, path...)
		if err != nil {
			return false, start, err
		}
	}
	for _, v := range control {
		if json[start] == v {
			if equal {
				return true, start, nil
			}
			return false, start, nil
		}
	}
	if equal {
		return false, start, nil
	}
	return true, start, nil
}
"#

go_source inter_iter r#"package jin

// IterateArray is a callback function that can iterate any array and return value as byte slice.
// It stripes quotation marks from string values before return.
// Path value can be left blank for access main JSON.
func IterateArray(json []byte, callback func([]byte) (bool, error), path ...string) error {
	switch len(json) {
	case 0, 1:
		return errBadJSON(0)
	case 2:
		if string(json) == "[]" {
			return nil
		}
		return errBadJSON(0)
	}
	var start int
	var err error
	if len(path) == 0 {
		for space(json[start]) {
			if start > len(json)-2 {
				return errBadJSON(start)
			}
			start++
			continue
		}
	} else {
		_, start, _, err = core(json, true, path...)
		if err != nil {
			return err
		}
	}
	chars := []byte{34, 44, 91, 93, 123, 125}
	isJSONChar := make([]bool, 256)
	for _, v := range chars {
		isJSONChar[v] = true
	}
	if json[start] != 91 {
		return errArrayExpected()
	}
	start++
	inQuote := false
	level := 0
	for i := start; i < len(json); i++ {
		curr := json[i]
		if !isJSONChar[curr] {
			continue
		}
		if curr == 34 {
			if inQuote {
				for k := i - 1; k > 0; k-- {
					if json[k] == 92 {
						continue
					}
					if (i-k)%2 != 0 {
						inQuote = !inQuote
						goto cont
					}
					break
				}
			} else {
				inQuote = !inQuote
				continue
			}
		cont:
			continue
		}
		if inQuote {
			continue
		} else {
			if curr == 91 || curr == 123 {
				level++
				continue
			}
			if curr == 93 || curr == 125 {
				if level < 0 {
					return nil
				}
				if curr == 93 {
					if level == 0 {
						_, innerError := callback(cleanValue(json[start:i]))
						return innerError
					}
				}
				level--
				continue
			}
			if level == 0 {
				if curr == 44 {
					keepGoing, innerError := callback(cleanValue(json[start:i]))
					if innerError != nil {
						return innerError
					}
					if !keepGoing {
						return nil
					}
					start = i + 1
					continue
				}
			}
		}
	}
	return errBadJSON(start)
}

// IterateKeyValue is a callback function that can iterate any object and return key-value pair as byte slices.
// It stripes quotation marks from string values befour return.
// Path value can be left blank for access main JSON.
func IterateKeyValue(json []byte, callback func([]byte, []byte) (bool, error), path ...string) error {
	if string(json) == "{}" {
		return errEmpty()
	}
	var start int
	var err error
	var end int
	if len(path) == 0 {
		for space(json[start]) {
			if start > len(json)-1 {
				return errBadJSON(start)
			}
			start++
			continue
		}
	} else {
		_, start, _, err = core(json, true, path...)
		if err != nil {
			return err
		}
	}
	chars := []byte{34, 44, 58, 91, 93, 123, 125}
	isJSONChar := make([]bool, 256)
	for _, v := range chars {
		isJSONChar[v] = true
	}
	if json[start] == 123 {
		keyStart := 0
		keyEnd := 0
		inQuote := false
		level := 0
		var key []byte
		for i := start; i < len(json); i++ {
			curr := json[i]
			if !isJSONChar[curr] {
				continue
			}
			if curr == 34 {
				if inQuote {
					for n := i - 1; n > -1; n-- {
						if json[n] != 92 {
							if (i-n)%2 != 0 {
								inQuote = !inQuote
								break
							} else {
								goto cont
							}
						}
						continue
					}
				} else {
					inQuote = !inQuote
				}
				if inQuote {
					keyStart = i
					continue
				}
				keyEnd = i
			cont:
				continue
			}
			if inQuote {
				continue
			} else {
				if curr == 91 || curr == 123 {
					level++
					continue
				}
				if curr == 93 || curr == 125 {
					if curr == 125 {
						if level == 1 {
							for j := start; j < i; j++ {
								if !space(json[j]) {
									start = j
									break
								}
							}
							for j := i - 1; j > start-1; j-- {
								if !space(json[j]) {
									end = j
									break
								}
							}
							if json[start] == 34 && json[end] == 34 {
								callback(key, json[start+1:end])
								return nil
							}
							callback(key, json[start:end+1])
							return nil
						}
					}
					if level == 1 {
						return nil
					}
					level--
					continue
				}
				if level == 1 {
					if curr == 44 {
						end = i - 1
						for j := start; j < i; j++ {
							if !space(json[j]) {
								start = j
								break
							}
						}
						for j := i - 1; j > start; j-- {
							if !space(json[j]) {
								end = j
								break
							}
						}
						if json[start] == 34 && json[end] == 34 {
							keepGoing, innerError := callback(key, json[start+1:end])
							if innerError != nil {
								return innerError
							}
							if !keepGoing {
								return nil
							}
						} else {
							keepGoing, innerError := callback(key, json[start:end+1])
							if innerError != nil {
								return innerError
							}
							if !keepGoing {
								return nil
							}
						}
						continue
					}
					if curr == 58 {
						key = json[keyStart+1 : keyEnd]
						start = i + 1
						continue
					}
				}
			}
		}
		return nil
	}
	return errObjectExpected()
}
"#

go_source others r#"package jin

// Length function gives the length of any array or object
// that path has pointed.
func Length(json []byte, path ...string) (int, error) {
	if string(json) == "[]" || string(json) == "{}" {
		return 0, nil
	}
	start, end, err := getStartEnd(json, path...)
	if err != nil {
		return -1, err
	}
	length := 0
	level := 0
	inQuote := false
	chars := []byte{34, 44, 91, 93, 123, 125}
	isJSONChar := make([]bool, 256)
	for _, v := range chars {
		isJSONChar[v] = true
	}
	for i := start; i < end; i++ {
		curr := json[i]
		if !isJSONChar[curr] {
			continue
		}
		if curr == 34 {
			for n := i - 1; n > -1; n-- {
				if json[n] != 92 {
					if (i-n)%2 != 0 {
						inQuote = !inQuote
						break
					} else {
						break
					}
				}
				continue
			}
			continue
		}
		if inQuote {
			continue
		}
		if curr == 123 || curr == 91 {
			level++
			continue
		}
		if curr == 125 || curr == 93 {
			level--
			continue
		}
		if curr == 44 && level == 1 {
			length++
		}
	}
	if length == 0 {
		for i := start + 1; i < end-1; i++ {
			if !space(json[i]) {
				return 1, nil
			}
		}
		return 0, nil
	}
	return length + 1, nil
}

// Flatten is tool for formatting json strings.
// flattens indent formations.
func Flatten(json []byte) []byte {
	newJSON := make([]byte, 0, len(json))
	inQuote := false
	for i := 0; i < len(json); i++ {
		curr := json[i]
		if curr == 92 {
			newJSON = append(newJSON, curr)
			if i+1 < len(json) {
				newJSON = append(newJSON, json[i+1])
			}
			i++
			continue
		}
		if curr == 34 {
			newJSON = append(newJSON, curr)
			inQuote = !inQuote
			continue
		}
		if inQuote {
			newJSON = append(newJSON, curr)
			continue
		} else {
			if !space(curr) {
				newJSON = append(newJSON, curr)
				continue
			}
		}
	}
	return newJSON
}

// Indent is tool for formatting JSON strings.
// Adds Indentation to JSON string.
// It uses tab indentation.
func Indent(json []byte) []byte {
	json = Flatten(json)
	newJSON := make([]byte, 0, len(json))
	inQuote := false
	level := 0
	for i := 0; i < len(json); i++ {
		curr := json[i]
		if curr == 34 {
			newJSON = append(newJSON, curr)
			if json[i-1] == 92 {
				continue
			}
			inQuote = !inQuote
			continue
		}
		if inQuote {
			newJSON = append(newJSON, curr)
			continue
		} else {
			if !space(curr) {
				if curr == 91 {
					level++
					// add curr
					newJSON = append(newJSON, curr)
					// NL
					newJSON = append(newJSON, 10)
					// tab
					newJSON = append(newJSON, createTabs(level)...)
					continue
				}
				if curr == 93 {
					level--
					// NL
					newJSON = append(newJSON, 10)
					// tab
					newJSON = append(newJSON, createTabs(level)...)
					// add curr
					newJSON = append(newJSON, curr)
					continue
				}
				if curr == 123 {
					level++
					// add curr
					newJSON = append(newJSON, curr)
					// NL
					newJSON = append(newJSON, 10)
					// tab
					newJSON = append(newJSON, createTabs(level)...)
					continue
				}
				if curr == 125 {
					level--
					// NL
					newJSON = append(newJSON, 10)
					// tab
					newJSON = append(newJSON, createTabs(level)...)
					// add curr
					newJSON = append(newJSON, curr)
					continue
				}
				if curr == 44 {
					newJSON = append(newJSON, curr)
					// NL
					newJSON = append(newJSON, 10)
					// tab
					newJSON = append(newJSON, createTabs(level)...)
					continue
				}
				if curr == 58 {
					newJSON = append(newJSON, curr)
					// space
					newJSON = append(newJSON, 32)
					continue
				}
				newJSON = append(newJSON, curr)
				continue
			}
		}
	}
	return newJSON
}

// ParseArray is a parse function for converting string type arrays to string slices
func ParseArray(arr string) []string {
	if len(arr) < 2 {
		return []string{}
	}
	if arr[0] == 91 && arr[len(arr)-1] == 93 {
		if len(arr) == 2 {
			return []string{}
		}
		newArray := make([]string, 0, 16)
		start := 1
		inQuote := false
		level := 0
		for i := 0; i < len(arr); i++ {
			curr := arr[i]
			if curr == 92 {
				i++
				continue
			}
			if curr == 34 {
				inQuote = !inQuote
				continue
			}
			if inQuote {
				continue
			} else {
				if curr == 91 || curr == 123 {
					level++
				}
				if curr == 93 || curr == 125 {
					level--
					if curr == 93 {
						if level == 0 {
							val := arr[start:i]
							val = cleanValueString(val)
							newArray = append(newArray, val)
							break
						}
					}
				}
				if level == 1 {
					if curr == 44 {
						val := arr[start:i]
						val = cleanValueString(val)
						newArray = append(newArray, val)
						start = i + 1
						continue
					}
				}
			}
		}
		return newArray
	}
	return nil
}
"#

go_source make r#"package jin

import (
	"fmt"
	"strconv"
)

// Scheme is a tool for creating non-nested JSONs.
// It provides a struct for saving a JSON scheme for later usage.
// Do not access or manipulate this struct.
// Please use methods provided for.
type Scheme struct {
	originalKeys []string
	keys         []string
}

// MakeScheme is constructor method for creating Scheme's.
// It needs key(s) for create JSON.
// More information on Type Scheme example.
func MakeScheme(keys ...string) *Scheme {
	return &Scheme{keys: keys, originalKeys: keys}
}

// MakeJson is main creation method for creating JSON's from Schemes.
// More information on Type Scheme example.
func (s *Scheme) MakeJson(values ...interface{}) []byte {
	return MakeJson(s.keys, values)
}

// MakeJsonString is main creation method for creating JSON's from Schemes.
// More information on Type Scheme example.
func (s *Scheme) MakeJsonString(values ...string) []byte {
	return MakeJsonString(s.keys, values)
}

// MutateJson use for mutating a json to another json with a scheme.
func (s *Scheme) MutateJson(json []byte) ([]byte, error) {
	newJson := []byte(`{}`)
	var err, err2 error
	var val string
	for _, k := range s.keys {
		val, err = GetString(json, k)
		val = formatType(val)
		newJson, err2 = AddKeyValueString(newJson, k, val)
		if err == nil {
			if err2 != nil {
				return nil, err
			}
		}
	}
	return newJson, nil
}

// MutateJsonAbs use for mutating a json to another json with a scheme.
func (s *Scheme) MutateJsonAbs(json []byte) ([]byte, error) {
	newJson := []byte(`{}`)
	var err error
	var val string
	for _, k := range s.keys {
		val, err = GetString(json, k)
		if err != nil {
			return nil, err
		}
		val = formatType(val)
		newJson, err = AddKeyValueString(newJson, k, val)
		if err != nil {
			return nil, err
		}
	}
	return newJson, nil
}

// Check checks the json is fitting the scheme or not
func (s *Scheme) Check(json []byte) bool {
	for _, k := range s.keys {
		_, err := Get(json, k)
		if err != nil {
			return false
		}
	}
	return true
}

// CheckAbs checks the json is absolutely fitting the scheme or not
func (s *Scheme) CheckAbs(json []byte) bool {
	keys, err := GetKeys(json)
	if err != nil {
		return false
	}
	if len(keys) != len(s.keys) {
		return false
	}
	for i := 0; i < len(keys); i++ {
		has := false
		key := keys[i]
		for j := 0; j < len(s.keys); j++ {
			if key == s.keys[j] {
				has = true
				break
			}
		}
		if !has {
			return false
		}
	}
	return true
}

// Add adds a new key value to the current scheme.
// If given key is already exists it returns false, otherwise returns true.
// More information on Type Scheme example.
func (s *Scheme) Add(key string) bool {
	for _, k := range s.keys {
		if k == key {
			return false
		}
	}
	s.keys = append(s.keys, key)
	return true
}

// Remove removes the key value to the current scheme.
// If given key is not exists it returns false, otherwise returns true.
// More information on Type Scheme example.
func (s *Scheme) Remove(key string) bool {
	newKeys := make([]string, 0, len(s.keys))
	result := false
	for _, k := range s.keys {
		if k != key {
			newKeys = append(newKeys, k)
		} else {
			result = true
		}
	}
	s.keys = newKeys
	return result
}

// Save saves current keys for protect them temporary changes.
// More information on Type Scheme example.
func (s *Scheme) Save() {
	s.originalKeys = s.keys
}

// Restore Schemes original form.
// More information on Type Scheme example.
func (s *Scheme) Restore() {
	s.keys = s.originalKeys
}

// GetOriginalKeys is a simple get function for get Schemes original keys.
// More information on Type Scheme example.
func (s *Scheme) GetOriginalKeys() []string {
	return s.originalKeys
}

// GetCurrentKeys is a simple get function for get Schemes current keys.
// More information on Type Scheme example.
func (s *Scheme) GetCurrentKeys() []string {
	return s.keys
}

// MakeEmptyArray simply creates "[]" this as byte slice.
func MakeEmptyArray() []byte {
	return []byte{91, 93}
}

// MakeArray creates an array formation from given values and returns them as byte slice.
// Do not use any slice/array for parameter.
// It will accept this kind types but won't be able to make valid representation for use!
func MakeArray(elements ...interface{}) []byte {
	if elements == nil {
		return []byte{91, 93}
	}
	js := make([]byte, 0, 128)
	js = append(js, 91)
	for _, e := range elements {
		js = append(js, []byte(formatType(fmt.Sprintf("%v", e)))...)
		js = append(js, 44)
	}
	js = js[:len(js)-1]
	js = append(js, 93)
	return js
}

// MakeArrayString is a variation of MakeArray() func.
// Parameter type must be slice of string.
// For more information look MakeArray() function.
func MakeArrayString(values []string) []byte {
	if values == nil {
		return []byte(`[]`)
	}
	js := make([]byte, 0, 128)
	js = append(js, 91)
	for _, v := range values {
		js = append(js, []byte(formatType(v))...)
		js = append(js, 44)
	}
	js = js[:len(js)-1]
	js = append(js, 93)
	return js
}

// MakeArrayInt is a variation of MakeArray() func.
// Parameter type must be slice of integer.
// For more information look MakeArray() function.
func MakeArrayInt(values []int) []byte {
	if values == nil {
		return []byte{91, 93}
	}
	js := make([]byte, 0, 128)
	js = append(js, 91)
	for _, v := range values {
		js = append(js, []byte(strconv.Itoa(v))...)
		js = append(js, 44)
	}
	js = js[:len(js)-1]
	js = append(js, 93)
	return js
}

// MakeArrayBool is a variation of MakeArray() func.
// Parameter type must be slice of boolean.
// For more information look MakeArray() function.
func MakeArrayBool(values []bool) []byte {
	if values == nil {
		return []byte{91, 93}
	}
	js := make([]byte, 0, 128)
	js = append(js, 91)
	t := []byte("true")
	f := []byte("false")
	for _, v := range values {
		var val []byte
		if v {
			val = t
		} else {
			val = f
		}
		js = append(js, val...)
		js = append(js, 44)
	}
	js = js[:len(js)-1]
	js = append(js, 93)
	return js
}

// MakeArrayFloat is a variation of MakeArray() func.
// Parameter type must be slice of float64.
// For more information look MakeArray() function.
func MakeArrayFloat(values []float64) []byte {
	if values == nil {
		return []byte{91, 93}
	}
	js := make([]byte, 0, 128)
	js = append(js, 91)
	for _, v := range values {
		num := strconv.FormatFloat(v, 'f', -1, 64)
		start := 0
		for i := 0; i < len(num); i++ {
			if num[i] == 'e' {
				start = i
			}
		}
		exp, _ := strconv.Atoi(num[start+2:])
		if exp == 0 {
			js = append(js, []byte(num[:start])...)
		} else {
			js = append(js, []byte(num)...)
		}
		js = append(js, 44)
	}
	js = js[:len(js)-1]
	js = append(js, 93)
	return js
}

// MakeArrayBytes is a variation of MakeArray() func.
// Parameter type must be slice of byte.
// For more information look MakeArray() function.
func MakeArrayBytes(values ...[]byte) []byte {
	if values == nil {
		return []byte{91, 93}
	}
	js := make([]byte, 0, 128)
	js = append(js, 91)
	for _, v := range values {
		js = append(js, v...)
		js = append(js, 44)
	}
	js = js[:len(js)-1]
	js = append(js, 93)
	return js
}

// MakeEmptyJson simply creates "{}" this as byte slice.
func MakeEmptyJson() []byte {
	return []byte{123, 125}
}

// MakeJson creates an JSON formation from given key and value slices, and returns them as byte slice.
// Do not use any slice/array for 'values' variable parameter.
// It will accept this kind types but won't be able to make valid representation for use!
func MakeJson(keys []string, values []interface{}) []byte {
	if len(keys) != len(values) {
		return nil
	}
	if keys == nil {
		return []byte{123, 125}
	}
	js := make([]byte, 0, 128)
	js = append(js, 123)
	for i, k := range keys {
		js = append(js, 34)
		js = append(js, []byte(k)...)
		js = append(js, 34)
		js = append(js, 58)
		js = append(js, []byte(formatType(fmt.Sprintf("%v", values[i])))...)
		js = append(js, 44)
	}
	js = js[:len(js)-1]
	js = append(js, 125)
	return js
}

// MakeJsonString creates an JSON formation from given key and value string slices, and returns them as byte slice.
func MakeJsonString(keys, values []string) []byte {
	if len(keys) != len(values) {
		return nil
	}
	if keys == nil {
		return []byte{123, 125}
	}
	js := make([]byte, 0, 128)
	js = append(js, 123)
	for i, k := range keys {
		js = append(js, 34)
		js = append(js, []byte(k)...)
		js = append(js, 34)
		js = append(js, 58)
		js = append(js, []byte(formatType(values[i]))...)
		js = append(js, 44)
	}
	js = js[:len(js)-1]
	js = append(js, 125)
	return js
}

// MakeJsonWithMap creates an JSON formation from given string-string-map, and returns them as byte slice.
func MakeJsonWithMap(json map[string]string) []byte {
	if json == nil {
		return []byte{123, 125}
	}
	js := make([]byte, 0, 128)
	js = append(js, 123)
	for k, v := range json {
		js = append(js, 34)
		js = append(js, []byte(k)...)
		js = append(js, 34)
		js = append(js, 58)
		js = append(js, []byte(formatType(v))...)
		js = append(js, 44)
	}
	js = js[:len(js)-1]
	js = append(js, 125)
	return js
}
"#

go_source walk r#"package jin

import "strconv"

func (j *JO) Walk(callback func(k string, v []byte, p []string) (bool, error)) error {
	path := []string{}
	return walk(j.body, path, callback)
}

func Walk(json []byte, callback func(k string, v []byte, p []string) (bool, error)) error {
	path := []string{}
	return walk(json, path, callback)
}

func walk(json []byte, path []string, callback func(k string, v []byte, p []string) (bool, error)) error {
	t, err := GetType(json, path...)
	if err != nil {
		return err
	}
	switch t {
	case TypeObject:
		err := IterateKeyValue(json, func(keyBytes, _ []byte) (bool, error) {
			err = walk(json, append(path, string(keyBytes)), callback)
			if err != nil {
				return false, err
			}
			return true, nil
		}, path...)
		if err != nil {
			return err
		}
	case TypeArray:
		i := 0
		err := IterateArray(json, func(_ []byte) (bool, error) {
			err = walk(json, append(path, strconv.Itoa(i)), callback)
			if err != nil {
				return false, err
			}
			i++
			return true, nil
		}, path...)
		if err != nil {
			return err
		}
	default:
		key := ""
		if len(path) != 0 {
			key = path[len(path)-1]
		}
		val, err := Get(json, path...)
		if err != nil {
			return err
		}
		keepGoing, err := callback(key, val, path)
		if err != nil {
			return err
		}
		if !keepGoing {
			return nil
		}
	}
	return nil
}
"#

go_source sequence r#"package jin

type sequance struct {
	list   []int
	index  int
	length int
}

func makeSeq(length int) *sequance {
	s := sequance{list: make([]int, length), index: 0, length: length}
	return &s
}

func (s *sequance) push(element int) {
	if s.index > s.length-1 {
		newList := make([]int, s.length+4)
		copy(newList, s.list)
		s.list = newList
		s.length = s.length + 4
	}
	s.list[s.index] = element
	s.index++
}

func (s *sequance) pop() int {
	if s.index > -1 {
		s.index--
		return s.list[s.index]
	}
	return 0
}

func (s *sequance) last() int {
	return s.list[s.index-1]
}

func (s *sequance) inc() {
	s.list[s.index-1]++
}
"#

go_source jin_object r#"package jin

import "io/ioutil"

type JO struct {
	body []byte
}

func NewJSON() *JO {
	return &JO{body: []byte("{}")}
}

// New jin_object method for same function name with interpreter
func New(buffer []byte) *JO {
	return &JO{body: buffer}
}

func (j *JO) JSON() []byte {
	return j.body
}

func (j *JO) String() string {
	return string(j.body)
}

// ReadJSONFile read json file and return a JSON OBject (JO)
func ReadJSONFile(path string) (*JO, error) {
	content, err := ioutil.ReadFile(path)
	if err != nil {
		return nil, err
	}
	return &JO{body: content}, nil
}

// ReadFile read json file and return a JSON OBject (JO)
func ReadFile(path string) (*JO, error) {
	content, err := ioutil.ReadFile(path)
	if err != nil {
		return nil, err
	}
	return &JO{body: content}, nil
}
"#

go_source jin_object_add r#"package jin

import "strconv"

// AddKeyValue jin_object method for same function name with interpreter
func (j *JO) AddKeyValue(key string, value []byte, path ...string) error {
	var err error
	j.body, err = AddKeyValue(j.body, key, value, path...)
	return err
}

// Add jin_object method for same function name with interpreter
func (j *JO) Add(value []byte, path ...string) error {
	var err error
	j.body, err = Add(j.body, value, path...)
	return err
}

// Insert jin_object method for same function name with interpreter
func (j *JO) Insert(index int, value []byte, path ...string) error {
	var err error
	j.body, err = Insert(j.body, index, value, path...)
	return err
}

// AddKeyValueString jin_object method for same function name with interpreter
func (j *JO) AddKeyValueString(key string, value string, path ...string) error {
	var err error
	j.body, err = AddKeyValueString(j.body, key, value, path...)
	return err
}

// AddKeyValueInt jin_object method for same function name with interpreter
func (j *JO) AddKeyValueInt(key string, value int, path ...string) error {
	var err error
	j.body, err = AddKeyValueInt(j.body, key, value, path...)
	return err
}

// AddKeyValueFloat jin_object method for same function name with interpreter
func (j *JO) AddKeyValueFloat(key string, value float64, path ...string) error {
	var err error
	j.body, err = AddKeyValueFloat(j.body, key, value, path...)
	return err
}

// AddKeyValueBool jin_object method for same function name with interpreter
func (j *JO) AddKeyValueBool(key string, value bool, path ...string) error {
	var err error
	j.body, err = AddKeyValueBool(j.body, key, value, path...)
	return err
}

// AddString jin_object method for same function name with interpreter
func (j *JO) AddString(value string, path ...string) error {
	var err error
	j.body, err = AddString(j.body, value, path...)
	return err
}

// AddInt jin_object method for same function name with interpreter
func (j *JO) AddInt(value int, path ...string) error {
	var err error
	j.body, err = AddInt(j.body, value, path...)
	return err
}

// AddFloat jin_object method for same function name with interpreter
func (j *JO) AddFloat(value float64, path ...string) error {
	var err error
	j.body, err = AddFloat(j.body, value, path...)
	return err
}

// AddBool jin_object method for same function name with interpreter
func (j *JO) AddBool(value bool, path ...string) error {
	var err error
	j.body, err = AddBool(j.body, value, path...)
	return err
}

// InsertString jin_object method for same function name with interpreter
func (j *JO) InsertString(index int, value string, path ...string) error {
	var err error
	j.body, err = InsertString(j.body, index, value, path...)
	return err
}

// InsertInt jin_object method for same function name with interpreter
func (j *JO) InsertInt(index int, value int, path ...string) error {
	var err error
	j.body, err = InsertInt(j.body, index, value, path...)
	return err
}

// InsertFloat jin_object method for same function name with interpreter
func (j *JO) InsertFloat(index int, value float64, path ...string) error {
	var err error
	j.body, err = InsertFloat(j.body, index, value, path...)
	return err
}

// InsertBool jin_object method for same function name with interpreter
func (j *JO) InsertBool(index int, value bool, path ...string) error {
	var err error
	j.body, err = InsertBool(j.body, index, value, path...)
	return err
}

func (j *JO) Store(key string, value []byte, path ...string) error {
	_, start, end, err := core(j.body, false, append(path, key)...)
	if err != nil {
		if ErrEqual(err, ErrCodeKeyNotFound) {
			j.body, err = AddKeyValue(j.body, key, value, path...)
			return err
		}
		return err
	}
	if j.body[start-1] == 34 && j.body[end] == 34 {
		j.body = replace(j.body, value, start-1, end+1)
		return nil
	}
	j.body = replace(j.body, value, start, end)
	return nil
}

// StoreString jin_object method for same function name with interpreter
func (j *JO) StoreString(key string, value string, path ...string) error {
	var err error
	j.body, err = Store(j.body, key, []byte(value), path...)
	return err
}

// StoreInt jin_object method for same function name with interpreter
func (j *JO) StoreInt(key string, value int, path ...string) error {
	var err error
	j.body, err = Store(j.body, key, []byte(strconv.Itoa(value)), path...)
	return err
}

// StoreFloat jin_object method for same function name with interpreter
func (j *JO) StoreFloat(key string, value float64, path ...string) error {
	var err error
	j.body, err = Store(j.body, key, []byte(strconv.FormatFloat(value, 'f', -1, 64)), path...)
	return err
}

// StoreBool jin_object method for same function name with interpreter
func (j *JO) StoreBool(key string, value bool, path ...string) error {
	var err error
	if value {
		j.body, err = Store(j.body, key, []byte("true"), path...)
		return err
	}
	j.body, err = Store(j.body, key, []byte("false"), path...)
	return err
}
"#

go_source jin_object_get r#"package jin

// Get jin_object method for same function name with interpreter
func (j *JO) Get(path ...string) ([]byte, error) {
	return Get(j.body, path...)
}

// GetString jin_object method for same function name with interpreter
func (j *JO) GetString(path ...string) (string, error) {
	return GetString(j.body, path...)
}

// GetStringArray jin_object method for same function name with interpreter
func (j *JO) GetStringArray(path ...string) ([]string, error) {
	return GetStringArray(j.body, path...)
}

// GetType jin_object method for same function name with interpreter
func (j *JO) GetType(path ...string) (string, error) {
	return GetType(j.body, path...)
}

// GetBool jin_object method for same function name with interpreter
func (j *JO) GetBool(path ...string) (bool, error) {
	return GetBool(j.body, path...)
}

// GetBoolArray jin_object method for same function name with interpreter
func (j *JO) GetBoolArray(path ...string) ([]bool, error) {
	return GetBoolArray(j.body, path...)
}

// GetFloat jin_object method for same function name with interpreter
func (j *JO) GetFloat(path ...string) (float64, error) {
	return GetFloat(j.body, path...)
}

// GetFloatArray jin_object method for same function name with interpreter
func (j *JO) GetFloatArray(path ...string) ([]float64, error) {
	return GetFloatArray(j.body, path...)
}

// GetInt jin_object method for same function name with interpreter
func (j *JO) GetInt(path ...string) (int, error) {
	return GetInt(j.body, path...)
}

// GetIntArray jin_object method for same function name with interpreter
func (j *JO) GetIntArray(path ...string) ([]int, error) {
	return GetIntArray(j.body, path...)
}

// GetAll jin_object method for same function name with interpreter
func (j *JO) GetAll(keys []string, path ...string) ([]string, error) {
	return GetAll(j.body, keys, path...)
}

// GetAllMap jin_object method for same function name with interpreter
func (j *JO) GetAllMap(keys []string, path ...string) (map[string]string, error) {
	return GetAllMap(j.body, keys, path...)
}

// GetKeys jin_object method for same function name with interpreter
func (j *JO) GetKeys(path ...string) ([]string, error) {
	return GetKeys(j.body, path...)
}

// GetValues jin_object method for same function name with interpreter
func (j *JO) GetValues(path ...string) ([]string, error) {
	return GetValues(j.body, path...)
}

// GetKeysValues jin_object method for same function name with interpreter
func (j *JO) GetKeysValues(path ...string) ([]string, []string, error) {
	return GetKeysValues(j.body, path...)
}

// GetMap jin_object method for same function name with interpreter
func (j *JO) GetMap(path ...string) (map[string]string, error) {
	return GetMap(j.body, path...)
}
"#

go_source jin_object_set r#"package jin

// Set jin_object method for same function name with interpreter
func (j *JO) Set(newValue []byte, path ...string) error {
	var err error
	j.body, err = Set(j.body, newValue, path...)
	return err
}

// SetString jin_object method for same function name with interpreter
func (j *JO) SetString(newValue string, path ...string) error {
	var err error
	j.body, err = SetString(j.body, newValue, path...)
	return err
}

// SetInt jin_object method for same function name with interpreter
func (j *JO) SetInt(newValue int, path ...string) error {
	var err error
	j.body, err = SetInt(j.body, newValue, path...)
	return err
}

// SetFloat jin_object method for same function name with interpreter
func (j *JO) SetFloat(newValue float64, path ...string) error {
	var err error
	j.body, err = SetFloat(j.body, newValue, path...)
	return err
}

// SetBool jin_object method for same function name with interpreter
func (j *JO) SetBool(newValue bool, path ...string) error {
	var err error
	j.body, err = SetBool(j.body, newValue, path...)
	return err
}

// SetKey jin_object method for same function name with interpreter
func (j *JO) SetKey(newKey string, path ...string) error {
	var err error
	j.body, err = SetKey(j.body, newKey, path...)
	return err
}
"#

go_source jin_object_others r#"package jin

// Delete jin_object method for same function name with interpreter
func (j *JO) Delete(path ...string) error {
	var err error
	j.body, err = Delete(j.body, path...)
	return err
}

// IterateArray jin_object method for same function name with interpreter
func (j *JO) IterateArray(callback func([]byte) (bool, error), path ...string) error {
	return IterateArray(j.body, callback, path...)
}

// IterateKeyValue jin_object method for same function name with interpreter
func (j *JO) IterateKeyValue(callback func([]byte, []byte) (bool, error), path ...string) error {
	return IterateKeyValue(j.body, callback, path...)
}

// IsObject jin_object method for same function name with interpreter
func (j *JO) IsObject(path ...string) (bool, error) {
	return IsObject(j.body, path...)
}

// IsArray jin_object method for same function name with interpreter
func (j *JO) IsArray(path ...string) (bool, error) {
	return IsArray(j.body, path...)
}

// IsValue jin_object method for same function name with interpreter
func (j *JO) IsValue(path ...string) (bool, error) {
	return IsValue(j.body, path...)
}

// IsEmpty jin_object method for same function name with interpreter
func (j *JO) IsEmpty(path ...string) (bool, error) {
	return IsEmpty(j.body, path...)
}
"#

go_source parse_core r#"package jin

import "strconv"

func pCore(json []byte, core *node) error {
	lenj := len(json)
	if lenj < 2 {
		return nil
	}
	inQuote := false
	braceList := makeSeq(4)
	indexList := makeSeq(4)
	indexList.push(0)
	var start int
	var end int
	var key []byte
	var valStart int
	var last byte
	chars := []byte{34, 44, 58, 91, 93, 123, 125}
	isJSONChar := make([]bool, 256)
	for _, v := range chars {
		isJSONChar[v] = true
	}
	for space(json[start]) {
		if start > len(json)-1 {
			return nil
		}
		start++
	}
	for i := start; i < lenj; i++ {
		curr := json[i]
		if !isJSONChar[curr] {
			continue
		}
		if curr == 34 {
			if inQuote {
				for n := i - 1; n > -1; n-- {
					if json[n] != 92 {
						if (i-n)&1 != 0 {
							inQuote = !inQuote
							break
						} else {
							goto cont
						}
					}
					continue
				}
			} else {
				inQuote = true
				start = i + 1
				continue
			}
			if inQuote {
				start = i + 1
				continue
			}
			end = i
		cont:
			continue
		}
		if inQuote {
			continue
		} else {
			switch curr {
			case 91, 123:
				switch last {
				case 58:
					newNode := &node{up: core, label: byteArrayToString(key)}
					core.down = append(core.down, newNode)
					core = newNode
				default:
					newNode := &node{up: core, label: strconv.Itoa(indexList.last())}
					core.down = append(core.down, newNode)
					core = newNode
				}
				indexList.push(0)
				braceList.push(i)
				valStart = i + 1
				last = curr
				continue
			case 93, 125:
				switch last {
				case 58:
					newNode := &node{up: core, label: byteArrayToString(key), value: json[valStart:i]}
					core.down = append(core.down, newNode)
				case 44:
					newNode := &node{up: core, label: strconv.Itoa(indexList.last()), value: json[valStart:i]}
					core.down = append(core.down, newNode)
					valStart = i + 1
				}
				core.value = json[braceList.pop() : i+1]
				indexList.pop()
				core = core.up
				last = curr
				continue
			case 58:
				key = json[start:end]
				valStart = i + 1
				last = 58
				continue
			case 44:
				switch last {
				case 58:
					newNode := &node{up: core, label: byteArrayToString(key), value: json[valStart:i]}
					core.down = append(core.down, newNode)
				case 44, 91:
					newNode := &node{up: core, label: strconv.Itoa(indexList.last()), value: json[valStart:i]}
					core.down = append(core.down, newNode)
				}
				indexList.inc()
				valStart = i + 1
				last = 44
				continue
			}
		}
	}
	return nil
}
"#

go_source parse_utils r#"package jin

import (
	"fmt"
	"strconv"
)

type node struct {
	label string
	value []byte
	up    *node
	down  []*node
}

// Parser is provides a struct for saving a JSON as nodes.
// Do not access or manipulate this struct.
// Please use methods provided for.
type Parser struct {
	core *node
	json []byte
}

func createNode(up *node) *node {
	Node := node{up: up}
	return &Node
}

func packKeyValue(label string, value []byte) []byte {
	byteOutput := make([]byte, 0, 16)
	byteOutput = append(byteOutput, 34)
	byteOutput = append(byteOutput, []byte(label)...)
	byteOutput = append(byteOutput, 34)
	byteOutput = append(byteOutput, 58)
	byteOutput = append(byteOutput, value...)
	return byteOutput
}

func packValue(value []byte) []byte {
	byteOutput := make([]byte, 0, 16)
	byteOutput = append(byteOutput, value...)
	return byteOutput
}

func (n *node) dive(bytes []byte) []byte {
	temp := make([]byte, 0, 32)
	temp = append(temp, n.value[0])
	for _, d := range n.down {
		val := d.value
		if len(d.down) != 0 {
			val = d.dive(bytes)
		}
		if d.up.value[0] == 123 {
			temp = append(temp, packKeyValue(d.label, val)...)
		}
		if d.up.value[0] == 91 {
			temp = append(temp, packValue(val)...)
		}
		temp = append(temp, 44)
	}
	if len(temp) == 0 {
		return nil
	}
	temp = temp[:len(temp)-1]
	temp = append(temp, n.value[0]+2)
	bytes = append(bytes, temp...)
	return bytes
}

// Parse is constructor method for creating Parsers.
func Parse(json []byte) (*Parser, error) {
	core := &node{up: nil}
	err := pCore(json, core)
	if err != nil {
		return nil, err
	}
	if core.down == nil {
		return nil, errBadJSON(0)
	}
	core = core.down[0]
	pars := Parser{core: core, json: json}
	return &pars, nil
}

func (n *node) insert(up *node, index int) error {
	lend := len(up.down)
	if lend != 0 {
		if lend-1 < index {
			return errIndexOutOfRange()
		}
		for i := index; i < lend; i++ {
			up.down[i].label = strconv.Itoa(i + 1)
		}
		n.label = strconv.Itoa(index)
		n.up = up
		return nil
	}
	return errIndexOutOfRange()
}

func (n *node) deAttach() {
	newDown := make([]*node, 0, len(n.up.down)-1)
	for _, d := range n.up.down {
		if d.label != n.label {
			newDown = append(newDown, d)
		}
	}
	n.up.down = newDown
}

func (n *node) walk(path []string) (*node, error) {
	for _, p := range path {
		for _, d := range n.down {
			if d.label == p {
				n = d
				goto cont
			}
		}
		return nil, errKeyNotFound(p)
	cont:
		continue
	}
	return n, nil
}

func (n *node) getIndex() int {
	for i, v := range n.up.down {
		if v.label == n.label {
			return i
		}
	}
	return -1
}

// Tree is a simple tool for visualizing JSONs as semi-tree formation.
// This function returns that form as string.
func (p *Parser) Tree() string {
	str := ""
	p.core.createTree(p.json, 0, false, &str)
	return str
}

// TreeFull is same function with Tree, except it returns tree with values.
func (p *Parser) TreeFull() string {
	str := ""
	p.core.createTree(p.json, 0, true, &str)
	return str
}

func (n *node) createTree(json []byte, depth int, withValues bool, str *string) {
	for _, d := range n.down {
		tab := ""
		for i := 0; i < depth-1; i++ {
			tab += "\t"
		}
		if withValues {
			if depth != 0 {
				*str += fmt.Sprintf("\t%v %-6v : %v\n", tab+string(rune(9492))+" ", d.label, string(d.value))
			} else {
				*str += fmt.Sprintf("%v%v %-6v : %v\n", tab, string(rune(9472)), d.label, string(d.value))
			}
		} else {
			if depth != 0 {
				*str += fmt.Sprintf("\t%v %v\n", tab+string(rune(9492))+" ", d.label)
			} else {
				*str += fmt.Sprintf("%v%v %v\n", tab, string(rune(9472)), d.label)
			}
		}
		if len(d.down) > 0 {
			d.createTree(json, depth+1, withValues, str)
		}
	}
}
"#

go_source parse_get r#"package jin

import "strconv"

// JSON returns underlying json value as byte array
func (p *Parser) JSON() []byte {
	return p.json
}

// Get returns the value that path has pointed.
// It stripes quotation marks from string values.
// Path can point anything, a key-value pair, a value, an array, an object.
// Path variable can not be null,
// otherwise it will provide an error message.
func (p *Parser) Get(path ...string) ([]byte, error) {
	if len(path) == 0 {
		return p.json, nil
	}
	curr, err := p.core.walk(path)
	if err != nil {
		return nil, err
	}
	return cleanValue(curr.value), nil
}

// GetNew returns the value that path has pointed.
// It stripes quotation marks from string values.
// Path can point anything, a key-value pair, a value, an array, an object.
// Path variable can not be null,
// otherwise it will provide an error message.
func (p *Parser) GetNew(path ...string) []byte {
	var err error
	curr := p.core
	if len(path) != 0 {
		curr, err = p.core.walk(path)
		if err != nil {
			return nil
		}
	}
	if len(curr.down) == 0 {
		return cleanValue(curr.value)
	}
	temp := make([]byte, 0, 128)
	temp = curr.dive(temp)
	return cleanValue(temp)
}

// GetString is a variation of Get() func.
// GetString returns the value that path has pointed as string.
func (p *Parser) GetString(path ...string) (string, error) {
	val, err := p.Get(path...)
	if err != nil {
		return "", err
	}
	return string(val), err
}

// GetInt is a variation of Get() func.
// GetInt returns the value that path has pointed as integer.
// returns an error message if the value to be returned cannot be converted to an integer
func (p *Parser) GetInt(path ...string) (int, error) {
	val, err := p.GetString(path...)
	if err != nil {
		return -1, err
	}
	intVal, err := strconv.Atoi(val)
	if err != nil {
		return -1, errIntegerParse(val)
	}
	return intVal, nil
}

// GetFloat is a variation of Get() func.
// GetFloat returns the value that path has pointed as float.
// returns an error message if the value to be returned cannot be converted to an float
func (p *Parser) GetFloat(path ...string) (float64, error) {
	val, err := p.GetString(path...)
	if err != nil {
		return -1, err
	}
	floatVal, err := strconv.ParseFloat(val, 64)
	if err != nil {
		return -1, errFloatParse(val)
	}
	return floatVal, nil
}

// GetBool is a variation of Get() func.
// GetBool returns the value that path has pointed as boolean.
// returns an error message if the value to be returned cannot be converted to an boolean
func (p *Parser) GetBool(path ...string) (bool, error) {
	val, err := p.GetString(path...)
	if err != nil {
		return false, err
	}
	if val == "true" {
		return true, nil
	}
	if val == "false" {
		return false, nil
	}
	return false, errBoolParse(val)
}

// GetStringArray is a variation of Get() func.
// GetStringArray returns the value that path has pointed as string slice.
// returns an error message if the value to be returned cannot be converted to an string slice.
func (p *Parser) GetStringArray(path ...string) ([]string, error) {
	val, err := p.GetString(path...)
	if err != nil {
		return nil, err
	}
	lena := len(val)
	if lena < 2 {
		return nil, errStringArrayParse(val)
	}
	if val[0] == 91 && val[lena-1] == 93 {
		arr := ParseArray(val)
		if arr == nil {
			return nil, errStringArrayParse(val)
		}
		return arr, nil
	}
	return nil, errStringArrayParse(val)
}

// GetIntArray is a variation of Get() func.
// GetIntArray returns the value that path has pointed as integer slice.
// returns an error message if the value to be returned cannot be converted to an integer slice.
func (p *Parser) GetIntArray(path ...string) ([]int, error) {
	val, err := p.GetString(path...)
	if err != nil {
		return nil, err
	}
	lena := len(val)
	if lena < 2 {
		return nil, errIntegerArrayParse(val)
	}
	if val[0] == 91 && val[lena-1] == 93 {
		newArray := make([]int, 0, 16)
		start := 1
		inQuote := false
		level := 0
		for i := 0; i < len(val); i++ {
			curr := val[i]
			if curr == 92 {
				i++
				continue
			}
			if curr == 34 {
				inQuote = !inQuote
				continue
			}
			if inQuote {
				continue
			} else {
				if curr == 91 || curr == 123 {
					level++
				}
				if curr == 93 || curr == 125 {
					level--
					if curr == 93 {
						if level == 0 {
							element := val[start:i]
							num, err := strconv.Atoi(cleanValueString(element))
							if err != nil {
								return nil, errIntegerParse(cleanValueString(element))
							}
							newArray = append(newArray, num)
							break
						}
					}
				}
				if level == 1 {
					if curr == 44 {
						element := val[start:i]
						num, err := strconv.Atoi(cleanValueString(element))
						if err != nil {
							return nil, errIntegerParse(cleanValueString(element))
						}
						newArray = append(newArray, num)
						start = i + 1
						continue
					}
				}
			}
		}
		return newArray, nil
	}
	return nil, errIntegerArrayParse(val)
}

// GetFloatArray is a variation of Get() func.
// GetFloatArray returns the value that path has pointed as float slice.
// returns an error message if the value to be returned cannot be converted to an float slice.
func (p *Parser) GetFloatArray(path ...string) ([]float64, error) {
	val, err := p.GetString(path...)
	if err != nil {
		return nil, err
	}
	lena := len(val)
	if lena < 2 {
		return nil, errFloatArrayParse(val)
	}
	if val[0] == 91 && val[lena-1] == 93 {
		newArray := make([]float64, 0, 16)
		start := 1
		inQuote := false
		level := 0
		for i := 0; i < len(val); i++ {
			curr := val[i]
			if curr == 92 {
				i++
				continue
			}
			if curr == 34 {
				inQuote = !inQuote
				continue
			}
			if inQuote {
				continue
			} else {
				if curr == 91 || curr == 123 {
					level++
				}
				if curr == 93 || curr == 125 {
					level--
					if curr == 93 {
						if level == 0 {
							element := val[start:i]
							num, err := strconv.ParseFloat(cleanValueString(element), 64)
							if err != nil {
								return nil, errFloatParse(cleanValueString(element))
							}
							newArray = append(newArray, num)
							break
						}
					}
				}
				if level == 1 {
					if curr == 44 {
						element := val[start:i]
						num, err := strconv.ParseFloat(cleanValueString(element), 64)
						if err != nil {
							return nil, errFloatParse(cleanValueString(element))
						}
						newArray = append(newArray, num)
						start = i + 1
						continue
					}
				}
			}
		}
		return newArray, nil
	}
	return nil, errFloatArrayParse(val)
}

// GetBoolArray is a variation of Get() func.
// GetBoolArray returns the value that path has pointed as boolean slice.
// returns an error message if the value to be returned cannot be converted to an boolean slice.
func (p *Parser) GetBoolArray(path ...string) ([]bool, error) {
	val, err := p.GetString(path...)
	if err != nil {
		return nil, err
	}
	lena := len(val)
	if lena < 2 {
		return nil, errBoolArrayParse(val)
	}
	if val[0] == 91 && val[lena-1] == 93 {
		newArray := make([]bool, 0, 16)
		start := 1
		inQuote := false
		level := 0
		for i := 0; i < len(val); i++ {
			curr := val[i]
			if curr == 92 {
				i++
				continue
			}
			if curr == 34 {
				inQuote = !inQuote
				continue
			}
			if inQuote {
				continue
			} else {
				if curr == 91 || curr == 123 {
					level++
				}
				if curr == 93 || curr == 125 {
					level--
					if curr == 93 {
						if level == 0 {
							element := val[start:i]
							element = cleanValueString(element)
							if element == "true" || element == "false" {
								if element == "true" {
									newArray = append(newArray, true)
								} else {
									newArray = append(newArray, false)
								}
							} else {
								return nil, errBoolParse(cleanValueString(element))
							}
							break
						}
					}
				}
				if level == 1 {
					if curr == 44 {
						element := val[start:i]
						element = cleanValueString(element)
						if element == "true" || element == "false" {
							if element == "true" {
								newArray = append(newArray, true)
							} else {
								newArray = append(newArray, false)
							}
						} else {
							return nil, errBoolParse(element)
						}
						start = i + 1
						continue
					}
				}
			}
		}
		return newArray, nil
	}
	return nil, errBoolArrayParse(val)
}
"#

go_source parse_set r#"package jin

import "strconv"

// Set sets the value that path has pointed.
// Path can point anything, a key-value pair, a value, an array, an object.
// Path variable can not be null,
// otherwise it will provide an error message.
func (p *Parser) Set(newVal []byte, path ...string) error {
	lenp := len(path)
	lenv := len(newVal)
	var curr *node
	var err error
	if lenp == 0 {
		return errNullPath()
	}
	curr, err = p.core.walk(path)
	if err != nil {
		return err
	}
	if lenv >= 2 {
		if newVal[0] == 91 || newVal[0] == 123 {
			newCore := createNode(nil)
			pCore(newVal, newCore)
			newCore.label = curr.label
			newCore.up = curr.up
			index := curr.getIndex()
			curr.up.down[index] = newCore
			newCore.value = newVal
			p.json, _ = Set(p.json, newVal, path...)
			for i := 0; i < lenp-1; i++ {
				newCore = newCore.up
				newCore.value, err = Get(p.json, path[:lenp-1-i]...)
				if err != nil {
					return err
				}
			}
			return nil
		}
	}
	curr.value = newVal
	p.json, _ = Set(p.json, newVal, path...)
	for i := 0; i < lenp-1; i++ {
		curr = curr.up
		curr.value, err = Get(p.json, path[:lenp-1-i]...)
		if err != nil {
			return err
		}
	}
	return nil
}

// SetString is a variation of Set() func.
// SetString takes the set value as string.
func (p *Parser) SetString(newValue string, path ...string) error {
	if newValue[0] != 34 && newValue[len(newValue)-1] != 34 {
		return p.Set([]byte(`"`+newValue+`"`), path...)
	}
	return p.Set([]byte(newValue), path...)
}

// SetInt is a variation of Set() func.
// SetInt takes the set value as integer.
func (p *Parser) SetInt(newValue int, path ...string) error {
	return p.Set([]byte(strconv.Itoa(newValue)), path...)
}

// SetFloat is a variation of Set() func.
// SetFloat takes the set value as float64.
func (p *Parser) SetFloat(newValue float64, path ...string) error {
	return p.Set([]byte(strconv.FormatFloat(newValue, 'f', -1, 64)), path...)
}

// SetBool is a variation of Set() func.
// SetBool takes the set value as boolean.
func (p *Parser) SetBool(newValue bool, path ...string) error {
	if newValue {
		return p.Set([]byte("true"), path...)
	}
	return p.Set([]byte("false"), path...)
}

// SetKey sets the key value of key-value pair that path has pointed.
// Path must point to an object.
// otherwise it will provide an error message.
// Path variable can not be null,
func (p *Parser) SetKey(newKey string, path ...string) error {
	lenp := len(path)
	lenv := len(newKey)
	var curr *node
	var err error
	if lenp == 0 {
		return errNullPath()
	}
	if lenv == 0 {
		return errNullKey()
	}
	curr, err = p.core.walk(path)
	if err != nil {
		return err
	}
	for _, d := range curr.up.down {
		if d.label == newKey {
			return errKeyAlreadyExist(newKey)
		}
	}
	curr.label = newKey
	p.json, _ = SetKey(p.json, newKey, path...)
	for i := 0; i < lenp-1; i++ {
		curr = curr.up
		curr.value, _ = Get(p.json, path[:lenp-1-i]...)
		if err != nil {
			return err
		}
	}
	return nil
}
"#

go_source parse_add r#"package jin

import (
	"strconv"
)

// AddKeyValue adds a key-value pair to an object.
// Path variable must point to an object,
// otherwise it will provide an error message.
func (p *Parser) AddKeyValue(key string, newVal []byte, path ...string) error {
	lenp := len(path)
	lenv := len(key)
	var curr *node
	var err error
	if lenv == 0 {
		return errNullKey()
	}
	json, err := p.Get(path...)
	if err != nil {
		return err
	}
	curr = p.core
	if lenp == 0 {
		for _, d := range curr.down {
			if d.label == key {
				return errKeyAlreadyExist(key)
			}
		}
		if len(json) >= 2 {
			if json[0] == 123 && json[len(json)-1] == 125 {
				newKV := []byte(`,"` + key + `":` + string(newVal))
				if lenv >= 2 {
					if newVal[0] == 91 || newVal[0] == 123 {
						newNode := createNode(nil)
						pCore(newVal, newNode)
						newNode.label = key
						newNode.value = newVal
						if len(p.json) == 2 {
							p.json = replace(p.json, newKV[1:], len(p.json)-1, len(p.json)-1)
						} else {
							p.json = replace(p.json, newKV, len(p.json)-1, len(p.json)-1)
						}
						curr.down = append(curr.down, newNode)
						newNode.up = curr
						return nil
					}
				}
				p.json = replace(p.json, newKV, len(p.json)-1, len(p.json)-1)
				newNode := createNode(nil)
				newNode.label = key
				newNode.value = newVal
				curr.down = append(curr.down, newNode)
				newNode.up = curr
				return nil
			}
			return errObjectExpected()
		}
		return errBadJSON(0)
	}
	curr, err = p.core.walk(path)
	if err != nil {
		return err
	}
	for _, d := range curr.up.down {
		if d.label == key {
			return errKeyAlreadyExist(key)
		}
	}
	if len(json) >= 2 {
		if json[0] == 123 && json[len(json)-1] == 125 {
			if lenv >= 2 {
				if newVal[0] == 91 || newVal[0] == 123 {
					newNode := createNode(nil)
					pCore(newVal, newNode)
					newNode.label = key
					newNode.value = newVal
					curr.down = append(curr.down, newNode)
					newNode.up = curr
					p.json, err = AddKeyValue(p.json, key, newVal, path...)
					if err != nil {
						return err
					}
					for i := 0; i < lenp; i++ {
						newNode = newNode.up
						newNode.value, err = Get(p.json, path[:lenp-i]...)
						if err != nil {
							return err
						}
					}
					return nil
				}
			}
			newNode := createNode(nil)
			newNode.label = key
			newNode.value = newVal
			curr.down = append(curr.down, newNode)
			newNode.up = curr
			p.json, err = AddKeyValue(p.json, key, newVal, path...)
			if err != nil {
				return err
			}
			for i := 0; i < lenp; i++ {
				newNode = newNode.up
				newNode.value, err = Get(p.json, path[:lenp-i]...)
				if err != nil {
					return err
				}
			}
			return nil
		}
		return errObjectExpected()
	}
	return errBadJSON(0)
}

// Add adds a value to an array.
// Path variable must point to an array,
// otherwise it will provide an error message.
func (p *Parser) Add(newVal []byte, path ...string) error {
	lenp := len(path)
	lenv := len(newVal)
	var curr *node
	var err error
	if lenv == 0 {
		return errNullKey()
	}
	json, err := p.Get(path...)
	if err != nil {
		return err
	}
	if err != nil {
		return err
	}
	if lenp == 0 {
		curr = p.core
		if len(json) >= 2 {
			if json[0] == 91 && json[len(json)-1] == 93 {
				newValue := []byte(`,` + string(newVal))
				if lenv >= 2 {
					if newVal[0] == 91 || newVal[0] == 123 {
						newNode := createNode(nil)
						pCore(newVal, newNode)
						index := len(curr.down)
						newNode.label = strconv.Itoa(index)
						newNode.value = newVal
						if len(p.json) == 2 {
							p.json = replace(p.json, newValue[1:], len(p.json)-1, len(p.json)-1)
						} else {
							p.json = replace(p.json, newValue, len(p.json)-1, len(p.json)-1)
						}
						curr.down = append(curr.down, newNode)
						newNode.up = curr
						return nil
					}
				}
				p.json = replace(p.json, newValue, len(p.json)-1, len(p.json)-1)
				newNode := createNode(nil)
				index := len(curr.down)
				newNode.label = strconv.Itoa(index)
				newNode.value = newVal
				curr.down = append(curr.down, newNode)
				newNode.up = curr
				return nil
			}
			return errArrayExpected()
		}
		return errBadJSON(0)
	}
	curr, err = p.core.walk(path)
	if err != nil {
		return err
	}
	if len(json) >= 2 {
		if json[0] == 91 && json[len(json)-1] == 93 {
			if lenv >= 2 {
				if newVal[0] == 91 || newVal[0] == 123 {
					newNode := createNode(nil)
					pCore(newVal, newNode)
					index := len(curr.down)
					newNode.label = strconv.Itoa(index)
					newNode.value = newVal
					curr.down = append(curr.down, newNode)
					newNode.up = curr
					p.json, err = Add(p.json, newVal, path...)
					if err != nil {
						return err
					}
					for i := 0; i < lenp-1; i++ {
						newNode = newNode.up
						newNode.value, err = Get(p.json, path[:lenp-i]...)
						if err != nil {
							return err
						}
					}
					return nil
				}
			}
			newNode := createNode(nil)
			index := len(curr.down)
			newNode.label = strconv.Itoa(index)
			newNode.value = newVal
			curr.down = append(curr.down, newNode)
			newNode.up = curr
			p.json, err = Add(p.json, newVal, path...)
			if err != nil {
				return err
			}
			for i := 0; i < lenp; i++ {
				newNode = newNode.up
				newNode.value, err = Get(p.json, path[:lenp-i]...)
				if err != nil {
					return err
				}
			}
			return nil
		}
		return errArrayExpected()
	}
	return errBadJSON(0)
}

// Insert inserts a value to an array.
// Path variable must point to an array,
// otherwise it will provide an error message.
func (p *Parser) Insert(newIndex int, newVal []byte, path ...string) error {
	lenp := len(path)
	lenv := len(newVal)
	var curr *node
	var err error
	if lenv == 0 {
		return errNullKey()
	}
	json, err := p.Get(path...)
	if err != nil {
		return err
	}
	curr = p.core
	if lenp == 0 {
		if len(json) >= 2 {
			if json[0] == 91 && json[len(json)-1] == 93 {
				if lenv >= 2 {
					if newVal[0] == 91 || newVal[0] == 123 {
						newNode := createNode(nil)
						pCore(newVal, newNode)
						err = newNode.insert(curr, newIndex)
						if err != nil {
							return err
						}
						p.json, err = Insert(p.json, newIndex, newVal, path...)
						if err != nil {
							return err
						}
						err = newNode.insert(curr, newIndex)
						if err != nil {
							return err
						}
						curr.down = append(curr.down, newNode)
						newNode.up = curr
						return nil
					}
				}
				newNode := createNode(nil)
				err = newNode.insert(curr, newIndex)
				if err != nil {
					return err
				}
				newNode.value = newVal
				curr.down = append(curr.down, newNode)
				p.json, err = Insert(p.json, newIndex, newVal, path...)
				if err != nil {
					return err
				}
				err = newNode.insert(curr, newIndex)
				if err != nil {
					return err
				}
				newNode.up = curr
				return nil
			}
			return errArrayExpected()
		}
		return errBadJSON(0)
	}
	curr, err = p.core.walk(path)
	if err != nil {
		return err
	}
	if len(json) >= 2 {
		if json[0] == 91 && json[len(json)-1] == 93 {
			if lenv >= 2 {
				if newVal[0] == 91 || newVal[0] == 123 {
					newNode := createNode(nil)
					pCore(newVal, newNode)
					err = newNode.insert(curr, newIndex)
					if err != nil {
						return err
					}
					newNode.value = newVal
					curr.down = append(curr.down, newNode)
					newNode.up = curr
					p.json, err = Insert(p.json, newIndex, newVal, path...)
					if err != nil {
						return err
					}
					for i := 0; i < lenp; i++ {
						newNode = newNode.up
						newNode.value, err = Get(p.json, path[:lenp-i]...)
						if err != nil {
							return err
						}
					}
					return nil
				}
			}
			newNode := createNode(nil)
			err = newNode.insert(curr, newIndex)
			if err != nil {
				return err
			}
			newNode.value = newVal
			curr.down = append(curr.down, newNode)
			newNode.up = curr
			p.json, err = Insert(p.json, newIndex, newVal, path...)
			if err != nil {
				return err
			}
			for i := 0; i < lenp; i++ {
				newNode = newNode.up
				newNode.value, err = Get(p.json, path[:lenp-i]...)
				if err != nil {
					return err
				}
			}
			return nil
		}
		return errArrayExpected()
	}
	return errBadJSON(0)
}

// AddKeyValueString is a variation of AddKeyValue() func.
// Type of new value must be a string.
func (p *Parser) AddKeyValueString(key, value string, path ...string) error {
	if len(key) == 0 {
		return errNullKey()
	}
	return p.AddKeyValue(key, []byte(formatType(value)), path...)
}

// AddKeyValueInt is a variation of AddKeyValue() func.
// Type of new value must be an integer.
func (p *Parser) AddKeyValueInt(key string, value int, path ...string) error {
	if len(key) == 0 {
		return errNullKey()
	}
	return p.AddKeyValue(key, []byte(strconv.Itoa(value)), path...)
}

// AddKeyValueFloat is a variation of AddKeyValue() func.
// Type of new value must be a float64.
func (p *Parser) AddKeyValueFloat(key string, value float64, path ...string) error {
	if len(key) == 0 {
		return errNullKey()
	}
	return p.AddKeyValue(key, []byte(strconv.FormatFloat(value, 'f', -1, 64)), path...)
}

// AddKeyValueBool is a variation of AddKeyValue() func.
// Type of new value must be a boolean.
func (p *Parser) AddKeyValueBool(key string, value bool, path ...string) error {
	if len(key) == 0 {
		return errNullKey()
	}
	if value {
		return p.AddKeyValue(key, []byte("true"), path...)
	}
	return p.AddKeyValue(key, []byte("false"), path...)
}

// AddString is a variation of Add() func.
// Type of new value must be an string.
func (p *Parser) AddString(value string, path ...string) error {
	return p.Add([]byte(formatType(value)), path...)
}

// AddInt is a variation of Add() func.
// Type of new value must be an integer.
func (p *Parser) AddInt(value int, path ...string) error {
	return p.Add([]byte(strconv.Itoa(value)), path...)
}

// AddFloat is a variation of Add() func.
// Type of new value must be an float64.
func (p *Parser) AddFloat(value float64, path ...string) error {
	return p.Add([]byte(strconv.FormatFloat(value, 'f', -1, 64)), path...)
}

// AddBool is a variation of Add() func.
// Type of new value must be an boolean.
func (p *Parser) AddBool(value bool, path ...string) error {
	if value {
		return p.Add([]byte("true"), path...)
	}
	return p.Add([]byte("false"), path...)
}

// InsertString is a variation of Insert() func.
// Type of new value must be an string.
func (p *Parser) InsertString(index int, value string, path ...string) error {
	if index < 0 {
		return errIndexOutOfRange()
	}
	return p.Insert(index, []byte(formatType(value)), path...)
}

// InsertInt is a variation of Insert() func.
// Type of new value must be an integer.
func (p *Parser) InsertInt(index, value int, path ...string) error {
	if index < 0 {
		return errIndexOutOfRange()
	}
	return p.Insert(index, []byte(strconv.Itoa(value)), path...)
}

// InsertFloat is a variation of Insert() func.
// Type of new value must be an float64.
func (p *Parser) InsertFloat(index int, value float64, path ...string) error {
	if index < 0 {
		return errIndexOutOfRange()
	}
	return p.Insert(index, []byte(strconv.FormatFloat(value, 'f', -1, 64)), path...)
}

// InsertBool is a variation of Insert() func.
// Type of new value must be an boolean.
func (p *Parser) InsertBool(index int, value bool, path ...string) error {
	if index < 0 {
		return errIndexOutOfRange()
	}
	if value {
		return p.Insert(index, []byte("true"), path...)
	}
	return p.Insert(index, []byte("false"), path...)
}
"#

go_source parse_delete r#"package jin

// Delete can delete any key-value pair, array value, array, object.
// Path value must be provided,
// otherwise it will provide an error message.
func (p *Parser) Delete(path ...string) error {
	var err error
	var curr *node
	lenp := len(path)
	if lenp == 0 {
		return errNullPath()
	}
	curr, err = p.core.walk(path)
	if err != nil {
		return err
	}
	curr.deAttach()
	p.json, err = Delete(p.json, path...)
	if err != nil {
		return err
	}
	for i := 0; i < lenp-1; i++ {
		curr = curr.up
		curr.value, err = Get(p.json, path[:lenp-i-1]...)
		if err != nil {
			return err
		}
	}
	return nil
}
"#

