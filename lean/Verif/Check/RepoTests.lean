import Verif.Model.ConfParser
import Verif.Model.Ws
import Verif.Lemmas.Sample
/-
The assertions of the project's own unit tests (/repo/test), put to the model. They are no proofs of anything; they show that the model
and the expectations of the authors agree where the authors wrote them down. The tests' `send` is a mock that appends what is sent to a
buffer; here it is `St.out`.
-/
namespace Wayuu.RepoTests
open C

/-- The strings of a list made by `split`. -/
def texts (r : C (List Buf)) : C (List Str) := r.bind (fun l => l.mapM cstr)

/-! ### test/string_utils_test.c -/

-- 30-36
example : join (some [some b!"test1", some b!"test2", some b!"test3"]) 3 b!"," = ok ⟨true, b!"test1,test2,test3"⟩ := by decide +kernel
-- 37-41
example : (join none 3 b!",").bind (fun r => ok r.s) = ok [] := by decide +kernel
-- 42-47
example : (join (some [none]) 3 b!",").bind (fun r => ok r.s) = ok [] := by decide +kernel
-- 52-61
example : texts (split b!"one,two,three" b!",") = ok [b!"one", b!"two", b!"three"] := by decide +kernel
-- 63-70
example : texts (split b!"one" b!",") = ok [b!"one"] := by decide +kernel
-- 72-77
example : texts (split [] b!",") = ok [] := by decide +kernel
-- 79-87
example : texts (split b!"onetwothreefouraverylongstring really reallylong trueeeeeeeeeeeeeeeeeeeeeee,fffffffffffffffffffffffffffffffffffffff,adsfjdfjaldfjasljffasfdsafdafdfasfkadfasdfasfafafasfasfsafdasfdasfdfasfasfasfas" b!",") =
    ok [b!"onetwothreefouraverylongstring really reallylong trueeeeeeeeeeeeeeeeeeeeeee", b!"fffffffffffffffffffffffffffffffffffffff",
      b!"adsfjdfjaldfjasljffasfdsafdafdfasfkadfasdfasfafafasfasfsafdasfdasfdfasfasfasfas"] := by decide +kernel
-- 92-99
example : texts (split_once b!"Referer :  http://www.example.com:4444/test" b!":") =
    ok [b!"Referer", b!"http://www.example.com:4444/test"] := by decide +kernel
-- 104-107
example : startswith b!"one two three" b!"one" = true := by decide +kernel
-- 109-112
example : startswith b!"one two three" b!"four" = false := by decide +kernel
-- 117-131
example : startswithany b!"four in a row" [some b!"three", some b!"four", some []] = ok true := by decide +kernel
example : startswithany b!"six this time" [some b!"three", some b!"four", some []] = ok false := by decide +kernel
example : startswithany b!"HEAD" ALLOWED_HTTP_METHODS = ok false := by decide +kernel
-- 136-142
example : rtrim b!"One;Two" 59 = ok b!"One" := by decide +kernel
-- 144-150
example : rtrim b!"One;Two" 46 = ok b!"One;Two" := by decide +kernel
-- 155-161
example : trimStr b!" A string  " = ok b!"A string" := by decide +kernel

/-! ### test/conf_parser_test.c -/

-- 32-39
example : (conf_parse_line b!"key1=the_value" false).bind (fun r => ok (r.map (fun i => (i.key.s, i.value.s)))) =
    ok (some (b!"key1", b!"the_value")) := by decide +kernel
-- 41-53
example : (conf_parse_line b!"key1=value1,value2,value3" true).bind (fun r => ok (r.map (fun i => (i.key.s, i.value.s, i.multi)))) =
    ok (some (b!"key1", b!"value1,value2,value3", [b!"value1", b!"value2", b!"value3"])) := by decide +kernel
-- 55-62
example : (conf_parse_line b!"key1=" false).bind (fun r => ok (r.map (fun i => (i.key.s, i.value.s)))) =
    ok (some (b!"key1", [])) := by decide +kernel
-- 67-83
example : get_key_flag b!"key_two" [(b!"key_one", false), (b!"key_two", true)] = some (b!"key_two", true) := by decide +kernel
example : get_key_flag b!"key_inexistent" [(b!"key_one", false), (b!"key_two", true)] = none := by decide +kernel
-- 88-105
example : (conf_parse_line b!"key1=the_value" false).bind (fun r => (r.elim (ub .null) conf_item_to_string)) =
    ok b!"key1=the_value" := by decide +kernel
example : (conf_parse_line b!"key1=value1,value2,value3" true).bind (fun r => (r.elim (ub .null) conf_item_to_string)) =
    ok b!"key1=value1,value2,value3" := by decide +kernel

/-! ### test/json_utils_test.c -/

-- 25-31
example : json_array_of_strings (some [some b!"uno", some b!"dos", some b!"tres"]) 3 = ok b!"[\"uno\",\"dos\",\"tres\"]" := by decide +kernel
-- 33-39
example : json_array_of_strings (some []) 0 = ok b!"[]" := by decide +kernel
-- 44-51
example : json_array_of_entities (fun (_ : Unit) => ok none) [] = ok b!"[]" := by decide +kernel
-- 56-78
example : json_array_of_ints (some [1, 2, 3]) 3 = ok b!"[1,2,3]" := by decide +kernel
example : json_array_of_ints (some [1]) 1 = ok b!"[1]" := by decide +kernel
example : json_array_of_ints (some [11, 22, 33, 44, 55, 444, 6666, 777]) 4 = ok b!"[11,22,33,44]" := by decide +kernel

/-! ### test/file_utils_test.c -/

/-- A file system with the folders /tmp and /root; the process may not write to /root. -/
def testFs : FS :=
  { node := fun p => if p = [b!"tmp"] ∨ p = [b!"root"] then some .dir else none
    canRead := fun _ => true
    canWrite := fun p => p.head? ≠ some b!"root" }

-- 25-28
example : (check_createdir testFs b!"/root/test123").1 = false := by decide +kernel
-- 30-33
example : (check_createdir testFs b!"/tmp").1 = true := by decide +kernel
-- 34-39
example : (check_createdir testFs b!"/tmp/123456789").1 = true := by decide +kernel

/-! ### test/http_utils_test.c -/

/-- What was sent. -/
def sent (r : C St) : C (List Byte) := r.bind (fun st => ok st.sent)

-- 42-55
example : sent (send_http_status sampleEnv sampleSt 404 b!"Error message") =
    ok (HTTP_NOT_FOUND_START ++ WAYUU_HTTP_SERVER_STRING ++ b!"Content-Length: 15\r\n\r\nError message\r\n") := by decide +kernel
-- 57-66
example : sent (send_http_status sampleEnv sampleSt 888 b!"Error message") = ok [] := by decide +kernel
-- 71-83
example : sent (not_authenticated sampleEnv sampleSt) =
    ok (HTTP_UNAUTHORIZED_START ++ WAYUU_HTTP_SERVER_STRING ++ HTTP_CONTENT_LENGTH_ZERO ++ b!"\r\n") := by decide +kernel
-- 88-100
example : sent (not_found sampleEnv sampleSt) =
    ok (HTTP_NOT_FOUND_START ++ WAYUU_HTTP_SERVER_STRING ++ HTTP_CONTENT_LENGTH_ZERO ++ b!"\r\n") := by decide +kernel
-- 105-139
example : get_path_and_query_string b!"/user/list?filter=john&sort=desc" = ok (b!"/user/list", b!"filter=john&sort=desc") := by decide +kernel
example : get_path_and_query_string b!"/api/scan/file?code=sunzip_test_2&project_id=1111111&path=sunzip.c" =
    ok (b!"/api/scan/file", b!"code=sunzip_test_2&project_id=1111111&path=sunzip.c") := by decide +kernel
example : get_path_and_query_string b!"/api/scan/file?code=snow_2.3.1&project_id=3285416309&path=snow-2.3.1/README.md" =
    ok (b!"/api/scan/file", b!"code=snow_2.3.1&project_id=3285416309&path=snow-2.3.1/README.md") := by decide +kernel
example : get_path_and_query_string b!"/user/list" = ok (b!"/user/list", []) := by decide +kernel
-- 141-152
example : (get_path_and_query_string b!"/api/user/list").bind (fun r => ok (r.1.drop API_MOUNT.length)) = ok b!"/user/list" := by
  decide +kernel
example : (get_path_and_query_string b!"/api").bind (fun r => ok (r.1.drop API_MOUNT.length)) = ok [] := by decide +kernel
-- 157-170
example : sent (return_json sampleEnv sampleSt b!"{\"session\":\"1234\"}") =
    ok (HTTP_OK_START ++ WAYUU_HTTP_SERVER_STRING ++ HTTP_ACCESS_CONTROL ++ CONTENT_TYPE_JSON ++ b!"Content-Length: 20\r\n\r\n{\"session\":\"1234\"}\r\n") := by
  decide +kernel
-- 175-196 (`strlen(error_json) + 2` is 57)
example : sent (do
      let code ← strcpyAt (calloc HTTP_MAX_ERROR_CODE_LEN) 0 b!"TEST_CODE"
      let message ← strcpyAt (calloc HTTP_MAX_ERROR_MSG_LEN) 0 b!"This is a test message"
      bad_request_with_error sampleEnv sampleSt ⟨code, message⟩) =
    ok (HTTP_BAD_REQUEST_START ++ WAYUU_HTTP_SERVER_STRING ++ HTTP_ACCESS_CONTROL ++ CONTENT_TYPE_JSON ++
      b!"Content-Length: 57\r\n\r\n{\"code\":\"TEST_CODE\",\"message\":\"This is a test message\"}\r\n") := by
  decide +kernel

/-! ### test/router_test.c -/

/-- test/router_test.c:26-43: handler 1 is `mock_request_handler`, filter 2 `true_filter`, filter 3 `false_filter`. -/
def testEnv (routes : List Route) : Env :=
  { sampleEnv with
    routes := routes
    handle := fun _ st => ok { st with out := st.out ++ [b!"REQUEST USER: test-user-154"] }
    filt := fun id st => if id = 2 then ok (st, true) else (bad_request sampleEnv st).bind (fun st => ok (st, false)) }

/-- The request of the tests. -/
def testSt (method path : Str) : St :=
  { sampleSt with req := { sampleSt.req with method := method, path := path, form := [some 0] } }

/-- A table with one route, and a request: what was sent, and the form. -/
def route (template : Str) (filter : Option Nat) (method path : Str) : C (List Byte × Str) := do
  let t ← router_add_route [] template (some 1) filter
  let (st, _) ← router_handle_request (testEnv t) (testSt method path)
  let form ← cstr st.req.form
  ok (st.sent, form)

-- 51-67
example : route b!"GET:/user" none b!"GET" b!"/user" = ok (b!"REQUEST USER: test-user-154", []) := by decide +kernel
-- 69-85
example : route b!"GET:/user" (some 2) b!"GET" b!"/user" = ok (b!"REQUEST USER: test-user-154", []) := by decide +kernel
-- 87-105
example : route b!"GET:/user" (some 3) b!"GET" b!"/user" =
    ok (HTTP_BAD_REQUEST_START ++ WAYUU_HTTP_SERVER_STRING ++ HTTP_CONTENT_LENGTH_ZERO ++ b!"\r\n", []) := by decide +kernel
-- 107-128
example : route b!"DELETE:/user/{username}" (some 3) b!"DELETE" b!"/user/123456" =
    ok (HTTP_BAD_REQUEST_START ++ WAYUU_HTTP_SERVER_STRING ++ HTTP_CONTENT_LENGTH_ZERO ++ b!"\r\n", b!"username=123456") := by decide +kernel
-- 132-138
example : router_resolve_route b!"/users/{id}" = ok (b!"/users/", b!"id") := by decide +kernel
-- 141-149
example : router_extract_param b!"/users/123456" ⟨true, b!"/users/", b!"id", none, none⟩ = ok b!"id=123456" := by decide +kernel

/-! ### test/ws_test.c -/

/-- test/ws_test.c:124 -/
def testPart : Str :=
  b!"Content-Disposition: form-data; name=\"uploadedfile\"; filename=\"hello.txt\"\r\nContent-Type: text/plain\r\n\r\nThis is an example\r\n"


-- 121-143: the fields the handler gets; the name of the temporary file is not empty. The code reaches them by way of writing
-- 129 bytes into an array of 36 (ws.c:235-236, C12), which the test does not notice.
example : (part_parse sampleEnv testFs (calloc (testPart.length + 1)) (strdup testPart) testPart.length).bind (fun r => cstr r.1) =
    ub .oob := by decide +kernel
-- with a digest buffer that fits the array
example : ((part_parse { sampleEnv with evpMax := 16 } testFs (calloc (testPart.length + 1)) (strdup testPart) testPart.length).bind
      (fun r => cstr r.1)) =
    ok b!"uploadedfile=hello.txt&tmpfile=140-00000000000000000000000000000000" := by decide +kernel

-- 148-156
example : (do
      let (_, fs) := check_createdir testFs b!"/tmp/etc"
      let fs ← write_file fs b!"/tmp/etc/allow" (strdup b!"127.0.0.1") 0 9
      let (a, p) ← allowed_address fs b!"/tmp" ⟨[], []⟩ b!"127.0.0.1"
      let (b, _) ← allowed_address fs b!"/tmp" p b!"140.12.13.11"
      ok (a, b)) = ok (true, false) := by decide +kernel

end Wayuu.RepoTests
