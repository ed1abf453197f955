import Verif.Model.KeyOptions
/-
  Model of /repo/src/key/TextFile.cxx and /repo/src/key/Set.cxx
-/
namespace Lukko.Model

/-- `MaybeSupportsKeyType`, TextFile.cxx:23-31 (with `HAVE_OPENSSL`). -/
def maybeSupportsKeyType (t : Bytes) : Bool :=
  (ascii "ssh-").isPrefixOf t || (ascii "ecdsa-").isPrefixOf t

/-- `IsLowerAlphaASCII` (libcommon); `IsOptionNameStartChar`, TextFile.cxx:33-37. -/
def isLowerAlpha (c : UInt8) : Bool := 97 ≤ c && c ≤ 122

/-- `IsOptionNameMiddleChar`, TextFile.cxx:39-43. -/
def isOptionNameChar (c : UInt8) : Bool := isLowerAlpha c || c == 45

/-- `ParseOptionName`, TextFile.cxx:45-64; `none`: returns `{}`. -/
def parseOptionName : Bytes → Option (Bytes × Bytes)
  | [] => none
  | c :: s =>
    if isLowerAlpha c then
      match s.dropWhile isOptionNameChar with
      | [] => none
      | r :: rest => some (c :: s.takeWhile isOptionNameChar, r :: rest)
    else none

/-- The quoted case of `ParseOptionValue`, TextFile.cxx:69-95: after the opening
quote. `none`: returns `{}`. -/
def parseQuoted (value : Bytes) : Bytes → Option (Bytes × Bytes)
  | [] => none
  | 34 :: rest => some (value, rest)
  | [92] => none
  | 92 :: c :: rest => parseQuoted (value ++ [c]) rest
  | c :: rest => parseQuoted (value ++ [c]) rest

/-- `c` ends an unquoted value. -/
def isValueChar (c : UInt8) : Bool := !(c == 44 || c == 32)

/-- `ParseOptionValue`, TextFile.cxx:66-113; `{}` is a pair of empty strings. -/
def parseOptionValue : Bytes → Bytes × Bytes
  | 34 :: s => (parseQuoted [] s).getD ([], [])
  | s => (s.takeWhile isValueChar, s.dropWhile isValueChar)

/-- `StripLeft` (libcommon): removes characters up to the space character. -/
def stripLeft (s : Bytes) : Bytes := s.dropWhile (fun c => c ≤ 32)

theorem dropWhile_length_le {α} (p : α → Bool) (s : List α) : (s.dropWhile p).length ≤ s.length := by
  induction s with
  | nil => simp
  | cons a s ih => rw [List.dropWhile_cons]; split <;> simp <;> omega

theorem parseOptionName_shorter {s n r} (h : parseOptionName s = some (n, r)) : r.length < s.length := by
  cases s with
  | nil => simp [parseOptionName] at h
  | cons c s =>
    simp only [parseOptionName] at h
    split at h
    · split at h
      · simp at h
      · rename_i r' rest heq
        simp only [Option.some.injEq, Prod.mk.injEq] at h
        obtain ⟨_, rfl⟩ := h
        have := dropWhile_length_le isOptionNameChar s
        rw [heq] at this
        simp only [List.length_cons] at this ⊢
        omega
    · simp at h

theorem parseQuoted_length {v s w r} (h : parseQuoted v s = some (w, r)) : r.length < s.length := by
  fun_induction parseQuoted v s with
  | case1 => simp at h
  | case2 => simp_all
  | case3 => simp at h
  | case4 _ _ _ ih => have := ih h; simp; omega
  | case5 _ _ _ _ _ _ ih => have := ih h; simp; omega

theorem parseOptionValue_length (s : Bytes) : (parseOptionValue s).2.length ≤ s.length := by
  unfold parseOptionValue
  split
  · rename_i s
    cases h : parseQuoted [] s with
    | none => simp
    | some wr => obtain ⟨w, r⟩ := wr; have := parseQuoted_length h; simp; omega
  · exact dropWhile_length_le _ _

/-- The value of an option and the rest, after its name: TextFile.cxx:125-128. -/
def optionValue : Bytes → Bytes × Bytes
  | 61 :: s => parseOptionValue s
  | s => ([], s)

theorem optionValue_length (s : Bytes) : (optionValue s).2.length ≤ s.length := by
  unfold optionValue
  split
  · have := parseOptionValue_length ‹_›; simp; omega
  · simp

/-- `ParseOptions`, TextFile.cxx:115-144; `none`: returns an empty string. -/
def parseOptions (o : KeyOptions) (s : Bytes) : Option (KeyOptions × Bytes) :=
  match h : parseOptionName s with
  | none => none
  | some (name, rest) =>
    match o.set name (optionValue rest).1 with
    | none => none
    | some o =>
      match h2 : (optionValue rest).2 with
      | 32 :: s => some (o, stripLeft s)
      | 44 :: s => parseOptions o s
      | _ => none
termination_by s.length
decreasing_by
  have h1 := parseOptionName_shorter h
  have h3 := optionValue_length rest
  rw [h2] at h3
  simp at h3
  omega

/-- `Split(s, ' ')` (libcommon): before and after the first space. -/
def splitSpace (s : Bytes) : Bytes × Bytes :=
  (s.takeWhile (· != 32), (s.dropWhile (· != 32)).drop 1)

/-- `ExtractPublicKeyBlobFromLine`, TextFile.cxx:146-163; an empty blob is "no key". -/
def extractBlob (line : Bytes) : Bytes × KeyOptions :=
  match stripLeft line with
  | [] => ([], {})
  | 35 :: _ => ([], {})
  | line =>
    if maybeSupportsKeyType (splitSpace line).1 then
      ((splitSpace (splitSpace line).2).1, {})
    else
      match parseOptions {} line with
      | none => ([], {})
      | some (o, line) => ((splitSpace (splitSpace line).2).1, o)

variable (decode : Bytes → Option Bytes)

/-- `PublicKeysTextLineContains`, TextFile.cxx:199-216. -/
def lineContains (line needle : Bytes) : Option KeyOptions :=
  match extractBlob line with
  | ([], _) => none
  | (b64, o) =>
    match decode b64 with
    | none => none
    | some blob => if blob = needle then some o else none

/-- `IterableSplitString(contents, '\n')` (libcommon): the pieces between newlines. -/
def splitLines (s : Bytes) : List Bytes :=
  match s with
  | [] => [[]]
  | 10 :: s => [] :: splitLines s
  | c :: s =>
    match splitLines s with
    | [] => [[c]]
    | l :: ls => (c :: l) :: ls

/-- The two overloads of `PublicKeysTextFileContains`, TextFile.cxx:218-247, both in
terms of a list of lines. -/
def linesContain (lines : List Bytes) (needle : Bytes) : Option KeyOptions :=
  lines.findSome? fun line => lineContains decode line needle

/-- `PublicKeysTextFileContains(std::string_view)`, TextFile.cxx:218-227. -/
def textContains (contents needle : Bytes) : Option KeyOptions :=
  linesContain decode (splitLines contents) needle

/-- A line as returned by `BufferedReader::ReadLine` (libcommon): without a carriage
return at the end; being a C string it ends at a null byte. -/
def cLine (line : Bytes) : Bytes :=
  ((if line.getLast? = some 13 then line.dropLast else line).takeWhile (· != 0))

/-- `PublicKeysTextFileContains(FileDescriptor)`, TextFile.cxx:229-247; read errors are
not modelled. -/
def fileContains (contents needle : Bytes) : Option KeyOptions :=
  linesContain decode ((splitLines contents).map cLine) needle

/-- `class PublicKeySet`: `std::map`, of which only insertion and lookup are used. -/
abbrev KeySet := List (Bytes × KeyOptions)

/-- `PublicKeySet::Find`, Set.cxx:32-39. -/
def KeySet.find (s : KeySet) (blob : Bytes) : Option KeyOptions := List.lookup blob s

/-- `PublicKeySet::Add`, Set.cxx:15-20: `std::map::emplace` does nothing if the key
exists. -/
def KeySet.add (s : KeySet) (blob : Bytes) (o : KeyOptions) : KeySet :=
  match s.find blob with
  | some _ => s
  | none => s ++ [(blob, o)]

/-- `LoadPublicKeyLine`, TextFile.cxx:165-174. -/
def loadLine (s : KeySet) (line : Bytes) : KeySet :=
  match extractBlob line with
  | ([], _) => s
  | (b64, o) =>
    match decode b64 with
    | none => s
    | some blob => s.add blob o

/-- `LoadPublicKeysTextFile`, TextFile.cxx:176-190. -/
def loadFile (s : KeySet) (contents : Bytes) : KeySet :=
  ((splitLines contents).map cLine).foldl (loadLine decode) s

end Lukko.Model
