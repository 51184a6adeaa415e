import Verif.Model.Hyper
import Verif.Model.Digest
/-!
The unit tests of /repo replayed on the model (evaluated at build time, not used in any proof).
Tests that need Ed25519, ECDSA or RSA arithmetic use the shared key instead.
-/
namespace Verif.Conformance
open Sfv

def cid (s : Str) : CId := match CId.ofStr s with | .ok a => a | _ => ⟨.field (c! "?"), []⟩
def asc (s : String) : Bytes := utf8 s.toList
def hdr (n v : String) : Str × Bytes := (n.toList, asc v)
def dispOf {ε : Type} : Res ε Component → Option Str | .ok c => some c.disp | _ => none

/-! crypto: FIPS 180-4 examples and httpsig/src/lib.rs 79-103 -/
#guard Base64.encode (Sha2.sha256 (asc "abc")) = c! "ungWv48Bz+pBQUDeXa4iI7ADYaOWF3qctBD/YfIAFa0="
#guard Base64.encode (Sha2.sha512 (asc "abc")) =
  c! "3a81oZNherrMQXNJriBBMRLm+k6JqX6iCp7u5ktV05ohkpkqJ0/BqDa6PCOj/uu9RU1EI2Q86A4qmslPpUyknw=="
#guard Base64.encode (Sha2.sha256 (List.replicate 119 97)) = Base64.encode (Sha2.sha256 (asc (String.ofList (List.replicate 119 'a'))))
def hmacKeyB64 := c! "uzvJfB4u3N0Jy4T7NZ75MDVcr8zSTInedJtkgcu46YW4XByzNJjxBdtjUkdJPBtbmHhIDi6pcl8jsasjlTMtDQ=="
def sharedKey : SharedKey := match SharedKey.fromBase64 .hmacSha256 hmacKeyB64 with | .ok k => k | _ => .hmacSha256 []
def hmacBase : String := "\"date\": Tue, 20 Apr 2021 02:07:55 GMT\n\"@authority\": example.com\n\"content-type\": application/json\n\"@signature-params\": (\"date\" \"@authority\" \"content-type\");created=1618884473;keyid=\"test-shared-secret\""
#guard (match sharedKey.sign (asc hmacBase) with | .ok t => Base64.encode t | _ => []) = c! "pxcQw6G3AjtMBQjwo8XzkZf/bws5LelbaMk5rGIGtE8="
#guard (SharedKey.fromBase64 .ed25519 hmacKeyB64) = .err .invalidAlgorithmName

/-! component.rs 191-380 -/
def rt (s : Str) : Bool := dispOf (Component.ofStr s) == some s
#guard rt (c! "\"@method\": POST")
#guard rt (c! "\"@target-uri\": https://example.com/")
#guard rt (c! "\"@request-target\": /path?query")
#guard rt (c! "\"@query-param\";name=\"key\": \"value\"")
#guard rt (c! "\"@status\": 200")
#guard rt (c! "\"example-header\";bs;tr: example-value")
#guard rt (c! "\"x-empty-header\": ")
#guard Component.ofStr (c! "\"example-header\";key=\"hoge\": example-value") =
  .ok ⟨⟨.field (c! "example-header"), [.key (c! "hoge")]⟩, .plain (c! "example-value")⟩
#guard (Component.ofStr (c! "\"@method\";req: POST")).isOk
#guard Component.ofStr (c! "\"@method\";bs: POST") = .err .invalidComponentId
#guard Component.ofStr (c! "\"@method\";key=\"hoge\": POST") = .err .invalidComponentId
#guard dispOf (Component.build (cid (c! "content-type")) [c! "application/json", c! "application/json-patch+json"]) =
  some (c! "\"content-type\": application/json, application/json-patch+json")
#guard dispOf (Component.build (cid (c! "\"content-type\";sf")) [c! "application/json; patched=true", c! "application/json-patch+json;patched"]) =
  some (c! "\"content-type\";sf: application/json;patched=true, application/json-patch+json;patched")
#guard dispOf (Component.build (cid (c! "\"example-header\";key=\"patched\"")) [c! "patched=12345678", c! "patched=87654321", c! "not-patched=12345678"]) =
  some (c! "\"example-header\";key=\"patched\": 12345678, 87654321")
#guard CId.ofStr (c! "\"@method\";key=\"patched\"") = .err .invalidComponentId
#guard CId.ofStr (c! "\"@foo\"") = .panic

/-! signature_params.rs 287-335 -/
def sigpara := c! ";created=1704972031;alg=\"ed25519\";keyid=\"gjrE7ACMxgzYfFHgabgf4kLTg1eKIdsJ94AiFTFj1is=\""
def covered1 := c! "(\"@method\" \"@path\" \"@scheme\";req \"@authority\" \"content-type\";bs \"date\" \"content-length\")"
def prt (s : Str) : Bool := match SigParams.ofStr s with | .ok p => p.disp == s | _ => false
#guard prt (covered1 ++ sigpara)
#guard prt (c! "()" ++ sigpara)
#guard prt covered1
#guard SigParams.ofStr (c! "(\"date\" \"date\")") = .err .invalidSignatureParams
#guard SigParams.ofStr (c! "(\"date\");created=-1") = .panic
#guard (match SigParams.ofStr (covered1 ++ sigpara) with | .ok p => p.created | _ => none) = some 1704972031

/-! signature_base.rs 254-301 -/
def sbLines : List Component := [c! "\"@method\": GET", c! "\"@path\": /", c! "\"date\": Tue, 07 Jun 2014 20:51:35 GMT"].filterMap
  (fun s => match Component.ofStr s with | .ok c => some c | _ => none)
#guard (match SigParams.ofStr (c! "(\"@method\" \"@path\" \"date\")" ++ sigpara) with
  | .ok p => (match SigBase.tryNew sbLines p with
    | .ok b => b.disp == c! "\"@method\": GET\n\"@path\": /\n\"date\": Tue, 07 Jun 2014 20:51:35 GMT\n\"@signature-params\": (\"@method\" \"@path\" \"date\")" ++ sigpara
    | _ => false)
  | _ => false)
def sigInput := c! "sig-b26=(\"date\" \"@method\" \"@path\" \"@authority\" \"content-type\" \"content-length\");created=1618884473;keyid=\"test-key-ed25519\", sig-b27=(\"date\" \"@method\" \"@path\" \"@authority\" \"content-type\" \"content-length\");created=1618884473;keyid=\"test-key-ed25519-alt\""
def sigSig := c! "sig-b26=:wqcAqbmYJ2ji2glfAMaRy4gruYYnx2nEFN2HN6jrnDnQCK1u02Gb04v9EDgwUPiu4A0w6vuQv5lIp5WPpBKRCw==:, sig-b27=:wqcAqbmYJ2ji2glfAMaRy4gruYYnx2nEFN2HN6jrnDnQCK1u02Gb04v9EDgwUPiu4A0w6vuQv5lIp5WPpBKRCw==:"
#guard (match SigHeaders.tryParse sigSig sigInput with
  | .ok m => m.length == 2 &&
      (m.map (fun kv => kv.2.signatureValue)).head? == (splitOn ',' sigSig).head? &&
      (m.map (fun kv => kv.2.inputValue)).head? == (splitOn ',' sigInput).head?
  | _ => false)

/-! hyper_http_tests.rs -/
def reqUri : Uri := ⟨some (c! "https"), some (c! "example.com"), c! "/parameters", some (c! "var=this%20is%20a%20big%0Amultiline%20value&bar=with+plus+whitespace&fa%C3%A7ade%22%3A%20=something")⟩
def req0 : Request := ⟨c! "GET", reqUri, [hdr "date" "Sun, 09 May 2021 18:30:00 GMT", hdr "content-type" "application/json",
  hdr "content-type" "application/json-patch+json"], .data (asc "{\"hello\": \"world\"}")⟩
def req1 : Request := match req0.setContentDigest .sha256 with | .ok r => r | _ => req0
#guard req1.verifyContentDigest = .ok req1
#guard dispOf (extractComponent (.req req1) (cid (c! "content-digest"))) =
  some (c! "\"content-digest\": sha-256=:X48E9qOokqqrvdts8nOJRJN3OWDUoyWxBf7kbu9DBPE=:")
#guard dispOf (extractComponent (.req req1) (cid (c! "content-type"))) = some (c! "\"content-type\": application/json, application/json-patch+json")
def req1si : Request := { req1 with headers := req1.headers.insert hSignatureInput (asc "sig1=(\"@method\" \"@authority\")") }
#guard extractComponent (.req req1si) (cid (c! "@signature-params")) =
  .ok ⟨cid (c! "@signature-params"), .keyValue (c! "sig1") (c! "(\"@method\" \"@authority\")")⟩
def req2 : Request := { req0 with uri := ⟨some (c! "https"), some (c! "example.com"), c! "/path", some (c! "foo=bar&id=123&x=y")⟩ }
def x2 (s : Str) := dispOf (extractComponent (.req req2) (cid s))
#guard x2 (c! "@method") = some (c! "\"@method\": GET")
#guard x2 (c! "@target-uri") = some (c! "\"@target-uri\": https://example.com/path?foo=bar&id=123&x=y")
#guard x2 (c! "@authority") = some (c! "\"@authority\": example.com")
#guard x2 (c! "@scheme") = some (c! "\"@scheme\": https")
#guard x2 (c! "@path") = some (c! "\"@path\": /path")
#guard x2 (c! "@query") = some (c! "\"@query\": ?foo=bar&id=123&x=y")
#guard x2 (c! "\"@query-param\";name=\"id\"") = some (c! "\"@query-param\";name=\"id\": 123")
#guard x2 (c! "@request-target") = some (c! "\"@request-target\": /path?foo=bar&id=123&x=y")

def sp (l : List Str) : SigParams := { created := some 1704972031, keyid := some sharedKey.keyId, alg := some sharedKey.alg.toStr, covered := l.map cid }
def signed1 := req1.setSignature (sp [c! "@method", c! "date", c! "content-type", c! "content-digest"]) sharedKey.signing none
#guard signed1.2 = .ok ()
#guard signed1.1.verifySignature 1800000000 sharedKey.verifying none = .ok (c! "sig")
#guard signed1.1.verifySignature 1800000000 sharedKey.verifying (some sharedKey.keyId) = .ok (c! "sig")
#guard signed1.1.verifySignature 1800000000 sharedKey.verifying (some (c! "NotFoundKeyId")) = .err .noSignatureHeaders
#guard (match getAlgKeyIds false (.req signed1.1) with | .ok l => l == [(c! "sig", (some Alg.hmacSha256, some sharedKey.keyId))] | _ => false)
#guard (req2.setSignature (sp [c! "@status"]) sharedKey.signing none).2 = .err .invalidComponentName
def signedExp := req1.setSignature ((sp [c! "date"]).setExpires 1704972030) sharedKey.signing none
#guard signedExp.1.verifySignature 1704972031 sharedKey.verifying none = .err .invalidSignature
#guard signedExp.1.verifySignature 1704972030 sharedKey.verifying none = .ok (c! "sig")
def res0 : Response := ⟨200, [], .data []⟩
def signedRes := res0.setSignature (sp [c! "@status", c! "\"@query-param\";name=\"id\";req"]) sharedKey.signing none (some req2)
#guard signedRes.2 = .ok ()
#guard signedRes.1.verifySignature 1800000000 sharedKey.verifying none (some req2) = .ok (c! "sig")
#guard (res0.setSignature (sp [c! "@status", c! "@method"]) sharedKey.signing none none).2 = .err .invalidComponentName
def other : SharedKey := .hmacSha256 [1, 2, 3]
def spO (l : List Str) : SigParams := { sp l with keyid := some other.keyId }
def signed2 := req1.setSignatures [(sp [c! "@method"], sharedKey.signing, some (c! "a_sig")), (spO [c! "date"], other.signing, some (c! "b_sig"))]
#guard (match signed2.1.verifySignatures 1800000000 [(other.verifying, some other.keyId), (sharedKey.verifying, some sharedKey.keyId)] with
  | .ok [.ok a, .ok b] => a == c! "b_sig" && b == c! "a_sig" | _ => false)

end Verif.Conformance
