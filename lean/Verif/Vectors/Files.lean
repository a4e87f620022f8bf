import Verif.Model.Stores

/-! # The files of `cmd/testdata`

Written by the real program (generated from /repo/cmd/testdata; the key in it is a test key). -/

namespace Jess.Vectors

/-- cmd/testdata/test.txt -/
def fileTest : Bytes :=
  b!"hello world!\n"

/-- cmd/testdata/test.txt.letter -/
def fileTestLetter : Bytes :=
  [1, 145, 2] ++
  b!"J{\n" ++
  b!"\t\"Version\": 1,\n" ++
  b!"\t\"SuiteID\": \"signfile_v1\",\n" ++
  b!"\t\"Nonce\": \"pKOQBQ==\",\n" ++
  b!"\t\"Signatures\": [\n" ++
  b!"\t\t{\n" ++
  b!"\t\t\t\"Scheme\": \"Ed25519\",\n" ++
  b!"\t\t\t\"ID\": \"3911c84c-78f7-4354-a7f5-0e115aa2903c\",\n" ++
  b!"\t\t\t\"Value\": \"ftsIINZ9oApKiXYQTcLIdAZDSflp6nRN/y8Gm0rdQC+3/wal6Q+7N3N8HEAxpoxWseSQNaRVCT9hSnRQStHYBA==\"\n" ++
  b!"\t\t}\n" ++
  b!"\t]\n" ++
  b!"}\n" ++
  [13] ++
  b!"hello world!\n"

/-- cmd/testdata/test.txt.sig -/
def fileTestSig : Bytes :=
  b!"-----BEGIN JESS SIGNATURE-----\n" ++
  b!"Q6VnVmVyc2lvbgFnU3VpdGVJRGtzaWduZmlsZV92MWVOb25jZUQb+MqAZERhdGFY\n" ++
  b!"d02Dq0xhYmVsZWRIYXNoxCIJIOz3Afcn2eLXfEqkmsb7vMmXJ4rKAQvd7rlhwQz1\n" ++
  b!"TUNaqFNpZ25lZEF01v9iy+uLqE1ldGFEYXRhgqd2ZXJzaW9upTAuMC4xqmlkZW50\n" ++
  b!"aWZpZXKyd2luZG93cy9jb2RlL3RoaW5nalNpZ25hdHVyZXOBo2ZTY2hlbWVnRWQy\n" ++
  b!"NTUxOWJJRHgkMzkxMWM4NGMtNzhmNy00MzU0LWE3ZjUtMGUxMTVhYTI5MDNjZVZh\n" ++
  b!"bHVlWECJZFbIifczUGAJkmATXCHy/MiQZkiktM99X7U/cPgw3IKpKAxQsJ5LobgZ\n" ++
  b!"4P2ecv0IlN4gQb+x+lycxl93E9sJ\n" ++
  b!"-----END JESS SIGNATURE-----"

/-- cmd/testdata/test3.txt -/
def fileTest3 : Bytes :=
  b!"hello world!!\n"

/-- cmd/testdata/test3.txt.sig -/
def fileTest3Sig : Bytes :=
  b!"-----BEGIN JESS SIGNATURE-----\n" ++
  b!"Q6VnVmVyc2lvbgFnU3VpdGVJRGtzaWduZmlsZV92MWVOb25jZUQJ9s/nZERhdGFY\n" ++
  b!"d02Dq0xhYmVsZWRIYXNoxCIJILtKnL1AHj7YubrWdLu1D+voud8Ky04vh756eTae\n" ++
  b!"rWQwqFNpZ25lZEF01v9izC6hqE1ldGFEYXRhgqd2ZXJzaW9upTAuMC4xqmlkZW50\n" ++
  b!"aWZpZXKyd2luZG93cy9jb2RlL3RoaW5nalNpZ25hdHVyZXOBo2ZTY2hlbWVnRWQy\n" ++
  b!"NTUxOWJJRHgkMzkxMWM4NGMtNzhmNy00MzU0LWE3ZjUtMGUxMTVhYTI5MDNjZVZh\n" ++
  b!"bHVlWEBLsd2QbM7VmEsnW60hHn/V6EP2mGFauWZgbEOlKTiqumVFbWU4K7Fi91KL\n" ++
  b!"Zgvwj+CNdZJ7Xv2qR7etviRDCmwC\n" ++
  b!"-----END JESS SIGNATURE-----"

/-- cmd/testdata/test4.txt -/
def fileTest4 : Bytes :=
  b!"hello world!\n"

/-- cmd/testdata/testdir/test2.txt -/
def fileTest2 : Bytes :=
  b!"hello world!\n"

/-- cmd/testdata/testdir/test2.txt.sig -/
def fileTest2Sig : Bytes :=
  b!"-----BEGIN JESS SIGNATURE-----\n" ++
  b!"Q6VnVmVyc2lvbgFnU3VpdGVJRGtzaWduZmlsZV92MWVOb25jZUThzxO6ZERhdGFY\n" ++
  b!"d02Dq0xhYmVsZWRIYXNoxCIJIOz3Afcn2eLXfEqkmsb7vMmXJ4rKAQvd7rlhwQz1\n" ++
  b!"TUNaqFNpZ25lZEF01v9izC3SqE1ldGFEYXRhgqd2ZXJzaW9upTAuMC4xqmlkZW50\n" ++
  b!"aWZpZXKyd2luZG93cy9jb2RlL3RoaW5nalNpZ25hdHVyZXOBo2ZTY2hlbWVnRWQy\n" ++
  b!"NTUxOWJJRHgkMzkxMWM4NGMtNzhmNy00MzU0LWE3ZjUtMGUxMTVhYTI5MDNjZVZh\n" ++
  b!"bHVlWEAGLkIoej0+ilJrIyb+BzX8+Yw2LY0zkoL9vwI02/2KqKVT7/pH+LTDX1Hl\n" ++
  b!"h1epYkF8ICdwa1iVNDx6P7iNmWkL\n" ++
  b!"-----END JESS SIGNATURE-----"

/-- cmd/testdata/.truststore/3911c84c-78f7-4354-a7f5-0e115aa2903c.signet -/
def fileSignet : Bytes :=
  b!"J{\n" ++
  b!"\t\"Version\": 1,\n" ++
  b!"\t\"ID\": \"3911c84c-78f7-4354-a7f5-0e115aa2903c\",\n" ++
  b!"\t\"Scheme\": \"Ed25519\",\n" ++
  b!"\t\"Key\": \"Aee5n/V1wJM8aNpaNEPBEPeN6S0Tl41OJP0rHwtsGcZcNhVmOaFHVnB7QoA9X32nNvMj7rNaAq8Qs2EXCiVF2e8=\",\n" ++
  b!"\t\"Info\": {\n" ++
  b!"\t\t\"Name\": \"Safing Code Signing Cert 1\",\n" ++
  b!"\t\t\"Owner\": \"\",\n" ++
  b!"\t\t\"Created\": \"2022-07-11T10:23:31.705715613+02:00\",\n" ++
  b!"\t\t\"Expires\": \"0001-01-01T00:00:00Z\",\n" ++
  b!"\t\t\"Details\": null\n" ++
  b!"\t}\n" ++
  b!"}"

/-- cmd/testdata/.truststore/3911c84c-78f7-4354-a7f5-0e115aa2903c.recipient -/
def fileRecipient : Bytes :=
  b!"J{\n" ++
  b!"\t\"Version\": 1,\n" ++
  b!"\t\"ID\": \"3911c84c-78f7-4354-a7f5-0e115aa2903c\",\n" ++
  b!"\t\"Scheme\": \"Ed25519\",\n" ++
  b!"\t\"Key\": \"ATYVZjmhR1Zwe0KAPV99pzbzI+6zWgKvELNhFwolRdnv\",\n" ++
  b!"\t\"Public\": true,\n" ++
  b!"\t\"Info\": {\n" ++
  b!"\t\t\"Name\": \"Safing Code Signing Cert 1\",\n" ++
  b!"\t\t\"Owner\": \"\",\n" ++
  b!"\t\t\"Created\": \"2022-07-11T10:23:31.705715613+02:00\",\n" ++
  b!"\t\t\"Expires\": \"0001-01-01T00:00:00Z\",\n" ++
  b!"\t\t\"Details\": null\n" ++
  b!"\t}\n" ++
  b!"}"

/-- cmd/testdata/.truststore/safing-codesign-1.envelope -/
def fileEnvelope : Bytes :=
  b!"J{\n" ++
  b!"\t\"Version\": 1,\n" ++
  b!"\t\"Name\": \"safing-codesign-1\",\n" ++
  b!"\t\"SuiteID\": \"signfile_v1\",\n" ++
  b!"\t\"Secrets\": null,\n" ++
  b!"\t\"Senders\": [\n" ++
  b!"\t\t{\n" ++
  b!"\t\t\t\"Version\": 1,\n" ++
  b!"\t\t\t\"ID\": \"3911c84c-78f7-4354-a7f5-0e115aa2903c\",\n" ++
  b!"\t\t\t\"Scheme\": \"Ed25519\",\n" ++
  b!"\t\t\t\"Key\": null,\n" ++
  b!"\t\t\t\"Info\": {\n" ++
  b!"\t\t\t\t\"Name\": \"Safing Code Signing Cert 1\",\n" ++
  b!"\t\t\t\t\"Owner\": \"\",\n" ++
  b!"\t\t\t\t\"Created\": \"2022-07-11T10:23:31.705715613+02:00\",\n" ++
  b!"\t\t\t\t\"Expires\": \"0001-01-01T00:00:00Z\",\n" ++
  b!"\t\t\t\t\"Details\": null\n" ++
  b!"\t\t\t}\n" ++
  b!"\t\t}\n" ++
  b!"\t],\n" ++
  b!"\t\"Recipients\": null,\n" ++
  b!"\t\"SecurityLevel\": 128\n" ++
  b!"}"

/-- The files, by their location (the last element first). -/
def repoFiles : List (Loc × Bytes) :=
  [([b!"test.txt"], fileTest),
   ([b!"test.txt.letter"], fileTestLetter),
   ([b!"test.txt.sig"], fileTestSig),
   ([b!"test3.txt"], fileTest3),
   ([b!"test3.txt.sig"], fileTest3Sig),
   ([b!"test4.txt"], fileTest4),
   ([b!"test2.txt", b!"testdir"], fileTest2),
   ([b!"test2.txt.sig", b!"testdir"], fileTest2Sig),
   ([b!"3911c84c-78f7-4354-a7f5-0e115aa2903c.signet", b!".truststore"], fileSignet),
   ([b!"3911c84c-78f7-4354-a7f5-0e115aa2903c.recipient", b!".truststore"], fileRecipient),
   ([b!"safing-codesign-1.envelope", b!".truststore"], fileEnvelope)]

/-- cmd/testdata as the root of a file system. -/
def repoFS : FS := fun l =>
  if l = [] ∨ l = [b!".truststore"] ∨ l = [b!"testdir"] then some .dir
  else (repoFiles.lookup l).map .file

end Jess.Vectors
