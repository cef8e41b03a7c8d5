import Verif.Lemmas.FileList

set_option autoImplicit false

/-!
# C114–C117: directories, paths, listings and files
-/
namespace Maliput.Props

open Files Files.Spec

/-! ## C114: making directories -/

/-- **C114.** When `create_directory_recursive` returns true the file system is that after `mkdir -p`: all directories on the way
to the path are there, and nothing else has changed. -/
theorem mkdirs_sound {s s' : FileSystem} {p : List Char} (wf : WellFormed s) (h : createRecursive s p = (s', true)) :
    ∃ l, locate s p = some l ∧ s' = mkdirP s l ∧ s'.kind l = some .dir ∧ WellFormed s' := by
  obtain ⟨h1, h2, h3⟩ := createRecursive_sound wf h
  obtain ⟨hp, hd⟩ := h3 rfl
  exact ⟨_, by rw [locate, if_neg hp], made_eq h1 h2 hd, hd, h1⟩

/-- **C114.** Whatever it returns, nothing that was there is changed or removed, and what is made are directories on the way to
the path, where the process may make them. -/
theorem mkdirs_harmless {s s' : FileSystem} {p : List Char} {b : Bool} {l : List (List Char)} (wf : WellFormed s)
    (hl : locate s p = some l) (h : createRecursive s p = (s', b)) : OnlyMade s s' l ∧ WellFormed s' := by
  obtain ⟨h1, h2, -⟩ := createRecursive_sound wf h
  rw [locate] at hl
  split at hl
  · cases hl
  · cases hl
    exact ⟨h2, h1⟩

/-- **C114.** When `mkdir -p` can succeed for a path, nothing is there yet, the path does not end in a slash and it does not
begin with a directory of one character in the current directory, `create_directory_recursive` makes the directories and returns
true. For other paths it does not do what `mkdir -p` does, as it is documented to, see `mkdirs_differ`. -/
theorem mkdirs_complete_partial {s : FileSystem} {p : List Char} {l : List (List Char)} (wf : WellFormed s)
    (hl : locate s p = some l) (possible : Possible s l) (missing : s.kind l = none) (no_slash : p.getLast? ≠ some '/')
    (not_short : ¬ (p.head? ≠ some '/' ∧ p[1]? = some '/')) : createRecursive s p = (mkdirP s l, true) := by
  have hp : p ≠ [] := by
    rintro rfl
    cases hl
  rw [locate, if_neg hp] at hl
  cases hl
  have hr : Ready s p 2 := by
    intro j hj hpj
    have habs : p.head? = some '/' := by
      rw [List.head?_eq_getElem?]
      match j, hj with
      | 0, _ => exact hpj
      | 1, _ =>
        by_cases h : p.head? = some '/'
        · rw [← List.head?_eq_getElem?]; exact h
        · exact absurd ⟨h, hpj⟩ not_short
    have : names (p.take j) = [] := by
      match j, hj with
      | 0, _ => rfl
      | 1, _ =>
        cases p with
        | nil => rfl
        | cons c p =>
          cases habs
          rfl
    rw [this, base, if_pos habs]
    exact wf.root
  have htrue : (createLoop p (stops p) s).2 = true :=
    createLoop_complete hp no_slash (stops p) s 2 (stops_sorted p) (fun j hj => stops_spec hj)
      (fun j hj hpj => mem_stops hj hpj) (fun j hj => (stops_spec hj).1) wf hr possible missing
  have heq : createRecursive s p = ((createLoop p (stops p) s).1, true) := by
    rw [createRecursive, if_neg hp, ← htrue]
  obtain ⟨h1, h2, h3⟩ := createRecursive_sound wf heq
  rw [heq, made_eq h1 h2 (h3 rfl).2]

/-- A file system with the root and a home directory, which is the current one. -/
def homeOnly : FileSystem where
  kind l := if l = [] ∨ l = ["home".toList] then some .dir else none
  cwd := ["home".toList]
  allowed _ := true

theorem homeOnly_wf : WellFormed homeOnly where
  root := rfl
  cwd := by decide
  parent l n h := by
    have h : (if l ++ [n] = [] ∨ l ++ [n] = ["home".toList] then some Kind.dir else none) ≠ none := h
    split at h
    · rename_i hc
      rcases hc with hc | hc
      · simp at hc
      · have : l = [] := by
          have := congrArg List.length hc
          simp at this
          exact this
        subst this
        rfl
    · exact absurd rfl h

theorem homeOnly_possible (l : List (List Char)) : Possible homeOnly l := by
  intro l' _
  refine ⟨?_, fun _ => rfl⟩
  show (if l' = [] ∨ l' = ["home".toList] then some Kind.dir else none) ≠ some .file
  split <;> simp

/-- **C114, witness.** `mkdir -p` succeeds for each of these paths: a directory which exists, one with a slash at its end, and
one in a directory with a name of one character. `create_directory_recursive` returns false for all of them, although it makes
the second, and does not make the last. -/
theorem mkdirs_differ :
    ((createRecursive homeOnly "/home".toList).2 = false) ∧
    ((createRecursive homeOnly "log/".toList).2 = false ∧
      (createRecursive homeOnly "log/".toList).1.kind ["home".toList, "log".toList] = some .dir) ∧
    ((createRecursive homeOnly "a/b".toList).2 = false ∧
      (createRecursive homeOnly "a/b".toList).1.kind ["home".toList, "a".toList] = none) := by
  decide

example : createRecursive homeOnly "maps//town/1".toList =
    (mkdirP homeOnly ["home".toList, "maps".toList, "town".toList, "1".toList], true) :=
  mkdirs_complete_partial homeOnly_wf (by decide) (homeOnly_possible _) (by decide) (by decide) (by decide)

example : ∃ l, locate homeOnly "maps//town".toList = some l ∧
    (createRecursive homeOnly "maps//town".toList).1 = mkdirP homeOnly l ∧
    (createRecursive homeOnly "maps//town".toList).1.kind l = some .dir ∧
    WellFormed (createRecursive homeOnly "maps//town".toList).1 :=
  mkdirs_sound homeOnly_wf (Prod.ext rfl (by decide))

example : OnlyMade homeOnly (createRecursive homeOnly "log/".toList).1 ["home".toList, "log".toList] :=
  (mkdirs_harmless homeOnly_wf (p := "log/".toList) (b := false) (by decide) (Prod.ext rfl (by decide))).1

/-! ## C115: paths -/

/-- **C115.** Appending to a path which is not empty gives the path of what the appended path names from there, and an absolute
path replaces it. A slash at the end, or several slashes, make no difference. -/
theorem append_locates_partial (s : FileSystem) (p q : List Char) (ne : p ≠ []) :
    ∃ r, append p q = .ok r ∧
      locate s r = if q.head? = some '/' then locate s q else (locate s p).map (· ++ names q) := by
  rw [append]
  split
  · rename_i hq
    have hq0 : q ≠ [] := by rintro rfl; cases hq
    cases hn : normalize q with
    | error e =>
      rw [normalize, if_neg hq0] at hn
      split at hn <;> cases hn
    | ok r =>
      obtain ⟨h1, h2, h3, h4⟩ := normalize_names hn
      exact ⟨r, rfl, by rw [locate, locate, if_neg h3, if_neg h4, base, base, h1, h2]⟩
  · cases hn : normalize (p ++ '/' :: q) with
    | error e =>
      rw [normalize, if_neg (by simp)] at hn
      split at hn <;> cases hn
    | ok r =>
      obtain ⟨h1, h2, h3, h4⟩ := normalize_names hn
      refine ⟨r, rfl, ?_⟩
      have hh : (p ++ '/' :: q).head? = p.head? := by
        cases p with
        | nil => exact absurd rfl ne
        | cons => rfl
      rw [locate, locate, if_neg ne, if_neg h4, base, base, h1, h2, names_append, hh, Option.map_some, List.append_assoc]

/-- **C115, witness.** Appending a relative path to an empty path, which is the path made by default, gives an absolute path;
and setting an empty path reads the last character of an empty string. -/
theorem empty_path_appended :
    append [] "maps".toList = .ok "/maps".toList ∧
    locate homeOnly "/maps".toList = some ["maps".toList] ∧
    locate homeOnly "maps".toList = some ["home".toList, "maps".toList] ∧
    setPath [] = .error .ub := by
  decide

/-- **C115.** What `is_file`, `is_directory`, `exists` and `is_absolute` say of a path: whether what it names is a file, which cannot
be named with a slash at the end, or a directory, or either, or either and named from the root. The empty path names nothing. -/
theorem path_queries (s : FileSystem) (p : List Char) :
    (isFile s p = true ↔ (∃ l, locate s p = some l ∧ s.kind l = some .file) ∧ p.getLast? ≠ some '/') ∧
    (isDirectory s p = true ↔ ∃ l, locate s p = some l ∧ s.kind l = some .dir) ∧
    (exists' s p = true ↔ isFile s p = true ∨ isDirectory s p = true) ∧
    (isAbsolute s p = true ↔ exists' s p = true ∧ p.head? = some '/') ∧
    exists' s [] = false := by
  have hstat : stat s p = some .file ↔ (∃ l, locate s p = some l ∧ s.kind l = some .file) ∧ p.getLast? ≠ some '/' := by
    unfold stat
    cases hl : locate s p with
    | none => simp
    | some l =>
      cases hk : s.kind l with
      | none => simp [hk]
      | some k => cases k <;> simp [hk]
  have hdir : stat s p = some .dir ↔ ∃ l, locate s p = some l ∧ s.kind l = some .dir := by
    unfold stat
    cases hl : locate s p with
    | none => simp
    | some l =>
      cases hk : s.kind l with
      | none => simp [hk]
      | some k => cases k <;> simp [hk]
  have hf : isFile s p = true ↔ stat s p = some .file := by
    unfold isFile exists'
    cases stat s p <;> simp
  have hd : isDirectory s p = true ↔ stat s p = some .dir := by
    unfold isDirectory exists'
    cases stat s p <;> simp
  refine ⟨hf.trans hstat, hd.trans hdir, ?_, ?_, rfl⟩
  · rw [hf, hd, exists', Option.isSome_iff_exists]
    constructor
    · rintro ⟨k, hk⟩
      cases k
      exacts [.inl hk, .inr hk]
    · rintro (h | h)
      exacts [⟨_, h⟩, ⟨_, h⟩]
  · unfold isAbsolute
    cases p <;> simp

/-- **C115, witness.** A path from the root is not absolute for `is_absolute` when there is nothing at it. -/
theorem absolute_path_not_absolute : isAbsolute homeOnly "/maps".toList = false ∧ isAbsolute homeOnly "/home/".toList = true := by
  decide

/-- **C115.** `remove_directory` and `remove_file` remove what is at their path, when it is an empty directory or a file, and
nothing else; they return whether they did. -/
theorem removes_only (s : FileSystem) (p : List Char) (l : List (List Char)) (hl : locate s p = some l) :
    ((removeDirectory s p).2 = true ↔ isDirectory s p = true ∧ ∀ n, s.kind (l ++ [n]) = none) ∧
    ((removeFile s p).2 = true ↔ isFile s p = true) ∧
    (∀ r, r = removeDirectory s p ∨ r = removeFile s p →
      (∀ l', l' ≠ l → r.1.kind l' = s.kind l') ∧ r.1.kind l = if r.2 then none else s.kind l) := by
  have h1 : removeDirectory s p = (put s l none, true) ∧ (isDirectory s p = true ∧ Empty s l) ∨
      removeDirectory s p = (s, false) ∧ ¬ (isDirectory s p = true ∧ Empty s l) := by
    rw [removeDirectory, hl]
    dsimp only
    by_cases hc : isDirectory s p = true ∧ Empty s l
    · rw [if_pos hc]; exact .inl ⟨rfl, hc⟩
    · rw [if_neg hc]; exact .inr ⟨rfl, hc⟩
  have h2 : removeFile s p = (put s l none, true) ∧ isFile s p = true ∨ removeFile s p = (s, false) ∧ ¬ isFile s p = true := by
    rw [removeFile, hl]
    dsimp only
    by_cases hc : isFile s p = true
    · rw [if_pos hc]; exact .inl ⟨rfl, hc⟩
    · rw [if_neg hc]; exact .inr ⟨rfl, hc⟩
  have hput : ∀ l', l' ≠ l → (put s l none).kind l' = s.kind l' := fun l' h => if_neg h
  have hput' : (put s l none).kind l = none := if_pos rfl
  refine ⟨?_, ?_, ?_⟩
  · rcases h1 with ⟨e, h⟩ | ⟨e, h⟩ <;> rw [e]
    · exact iff_of_true rfl h
    · exact iff_of_false (by simp) h
  · rcases h2 with ⟨e, h⟩ | ⟨e, h⟩ <;> rw [e]
    · exact iff_of_true rfl h
    · exact iff_of_false (by simp) h
  · rintro r (rfl | rfl)
    · rcases h1 with ⟨e, -⟩ | ⟨e, -⟩ <;> rw [e]
      · exact ⟨hput, hput'⟩
      · exact ⟨fun _ _ => rfl, rfl⟩
    · rcases h2 with ⟨e, -⟩ | ⟨e, -⟩ <;> rw [e]
      · exact ⟨hput, hput'⟩
      · exact ⟨fun _ _ => rfl, rfl⟩

/-- **C115, witness.** `remove_directory` documents to return true for every directory; it returns false for one with something
in it. -/
theorem full_directory_stays : isDirectory homeOnly "/".toList = true ∧ (removeDirectory homeOnly "/".toList).2 = false := by
  refine ⟨by decide, ?_⟩
  rw [Bool.eq_false_iff, ne_eq, (removes_only homeOnly "/".toList [] (by decide)).1]
  rintro ⟨-, h⟩
  exact absurd (h "home".toList) (by decide)

example : ∃ r, append "/home/maps".toList "town/x/".toList = .ok r ∧
    locate homeOnly r = some ["home".toList, "maps".toList, "town".toList, "x".toList] :=
  append_locates_partial homeOnly "/home/maps".toList "town/x/".toList (by decide)

/-! ## C116: files below a directory -/

/-- **C116.** `GetAllFilePathsFromDirectory` without a suffix gives the paths of exactly the files below the directory, at any
depth, each once. A path which is not that of a directory is refused. -/
theorem all_files_listed (disk : List Char → Option Tree) (p : List Char) :
    (∀ entries, disk p = some (.dir entries) → ∃ found, allFilePaths disk p none = .ok found ∧
      (∀ q, q ∈ found ↔ ∃ n ns, FileIn entries n ns ∧ q = pathTo p (n :: ns)) ∧ (NamedIn entries → found.Nodup)) ∧
    ((∀ entries, disk p ≠ some (.dir entries)) → ∀ suffix, allFilePaths disk p suffix = .error .throws) := by
  constructor
  · intro entries h
    refine ⟨_, by rw [allFilePaths, h], ?_, nodup_pathsOfEntries none p entries⟩
    intro q
    rw [mem_pathsOfEntries]
    simp [taken]
  · intro h suffix
    rw [allFilePaths]
    split
    · rename_i entries he
      exact absurd he (h entries)
    · rfl

/-- **C116.** With a suffix, every path found is that of a file below the directory and ends in the suffix, and every file whose
path ends in a dot and the suffix is found, each once, when the suffix has no dot. Suffixes with a dot find nothing, see
`dotted_suffix_finds_nothing`. -/
theorem files_with_suffix_partial (disk : List Char → Option Tree) (p : List Char) (entries : Forest) (suffix : List Char)
    (h : disk p = some (.dir entries)) (named : NamedIn entries) (ne : suffix ≠ []) :
    ∃ found, allFilePaths disk p (some suffix) = .ok found ∧ found.Nodup ∧
      (∀ q ∈ found, suffix <:+ q ∧ ∃ n ns, FileIn entries n ns ∧ q = pathTo p (n :: ns)) ∧
      ('.' ∉ suffix → ∀ n ns, FileIn entries n ns → '.' :: suffix <:+ pathTo p (n :: ns) → pathTo p (n :: ns) ∈ found) := by
  refine ⟨_, by rw [allFilePaths, h], nodup_pathsOfEntries _ p entries named, ?_, ?_⟩
  · intro q hq
    rw [mem_pathsOfEntries] at hq
    obtain ⟨n, ns, hf, rfl, ht⟩ := hq
    refine ⟨?_, n, ns, hf, rfl⟩
    rw [taken, Bool.or_eq_true, beq_iff_eq, beq_iff_eq] at ht
    rcases ht with ht | ht
    · exact absurd ht ne
    · have := (suffixOf_suffix (pathTo p (n :: ns))).1
      rwa [ht] at this
  · intro hd n ns hf hs
    rw [mem_pathsOfEntries]
    refine ⟨n, ns, hf, rfl, ?_⟩
    obtain ⟨a, ha⟩ := hs
    rw [taken, Bool.or_eq_true, beq_iff_eq, beq_iff_eq]
    right
    rw [← ha]
    exact suffixOf_dot a suffix hd

/-- **C116.** With a suffix which has a dot nothing is found, whatever is below the directory. -/
theorem dotted_suffix_finds_nothing (disk : List Char → Option Tree) (p : List Char) (entries : Forest) (suffix : List Char)
    (h : disk p = some (.dir entries)) (dot : '.' ∈ suffix) : allFilePaths disk p (some suffix) = .ok [] := by
  rw [allFilePaths, h]
  apply congrArg Except.ok
  rw [List.eq_nil_iff_forall_not_mem]
  intro q hq
  rw [mem_pathsOfEntries] at hq
  obtain ⟨n, ns, -, rfl, ht⟩ := hq
  rw [taken, Bool.or_eq_true, beq_iff_eq, beq_iff_eq] at ht
  rcases ht with rfl | ht
  · cases dot
  · exact (suffixOf_suffix (pathTo p (n :: ns))).2 (ht ▸ dot)

/-- A directory with a library, a text, and a library in a directory below. -/
def libraries : Forest :=
  .cons "libm.so".toList .file (.cons "notes.txt".toList .file (.cons "more".toList
    (.dir (.cons "x.so".toList .file .nil)) .nil))

/-- Only these libraries are on disk. -/
def libraryDisk (p : List Char) : Option Tree := if p = "/lib".toList then some (.dir libraries) else none

theorem libraries_named : NamedIn libraries := by
  simp only [libraries, NamedIn, Named, entryNames]
  decide

/-- **C116, witness.** The documentation says the paths "must end with" the suffix: two paths end in `.so`, and are found with
`so` but not with `.so`. -/
theorem dot_so_not_found :
    allFilePaths libraryDisk "/lib".toList (some "so".toList) = .ok ["/lib/libm.so".toList, "/lib/more/x.so".toList] ∧
    allFilePaths libraryDisk "/lib".toList (some ".so".toList) = .ok [] := by
  decide

example : ∃ found, allFilePaths libraryDisk "/lib".toList none = .ok found ∧
    (∀ q, q ∈ found ↔ ∃ n ns, FileIn libraries n ns ∧ q = pathTo "/lib".toList (n :: ns)) ∧ (NamedIn libraries → found.Nodup) :=
  (all_files_listed libraryDisk "/lib".toList).1 libraries rfl

example : ∃ found, allFilePaths libraryDisk "/lib".toList (some "so".toList) = .ok found ∧ "/lib/more/x.so".toList ∈ found := by
  obtain ⟨found, h, -, -, h'⟩ := files_with_suffix_partial libraryDisk "/lib".toList libraries "so".toList rfl libraries_named (by decide)
  exact ⟨found, h, h' (by decide) "more".toList ["x.so".toList]
    (.tail (.tail (.head (.inside (.head .here))))) ⟨"/lib/more/x".toList, by decide⟩⟩

example : allFilePaths libraryDisk "/lib".toList (some "tar.gz".toList) = .ok [] :=
  dotted_suffix_finds_nothing libraryDisk "/lib".toList libraries "tar.gz".toList rfl (by decide)

/-- **C116.** Paths written with colons between them in a variable of the environment are read back, in order, when none has a
colon and the last is not empty; a colon at the end makes no difference. A variable which is not set gives no paths. -/
theorem environment_paths (ps : List (List Char)) (hp : ∀ p ∈ ps, ':' ∉ p) (ne : ps.getLast? ≠ some []) (ne' : ps ≠ []) :
    pathsFromEnvironment (some (colons ps)) = ps ∧ pathsFromEnvironment (some (colons ps ++ [':'])) = ps ∧
    pathsFromEnvironment none = [] := by
  have h := split_colons ps ne' hp
  refine ⟨?_, ?_, rfl⟩
  · rw [pathsFromEnvironment, getlines, h]
    split
    · rename_i e
      exact absurd e ne
    · rfl
  · have h2 : split ':' (colons ps ++ [':']) = ps ++ [[]] := by
      rw [split_append, h]
      rfl
    rw [pathsFromEnvironment, getlines, h2]
    simp

example : pathsFromEnvironment (some "/opt/maps:lib".toList) = ["/opt/maps".toList, "lib".toList] :=
  (environment_paths ["/opt/maps".toList, "lib".toList] (by decide) (by decide) (by decide)).1

/-! ## C117: reading a file -/

/-- **C117.** `read_as_string` gives the whole file and true when the file can be opened and read to its end; it returns false and
leaves the string when the file cannot be opened. -/
theorem file_read_partial (t : List Char) :
    (∀ f : Stream, f.fails = false → ∃ n₀, ∀ n, n₀ ≤ n → readAsString n (some f) t = some (f.bytes, true)) ∧
    (∀ n, readAsString n none t = some (t, false)) := by
  refine ⟨fun f hf => ⟨f.bytes.length + 1, fun n hn => ?_⟩, fun _ => rfl⟩
  rw [readAsString, hf, readLoop_ends _ _ hn]
  rfl

/-- **C117.** When reading fails before the end, as it does at once for a directory, `read_as_string` never returns: the loop
looks only for the end of the file. -/
theorem failed_read_hangs (f : Stream) (fails : f.fails = true) (t : List Char) : ∀ n, readAsString n (some f) t = none := by
  intro n
  rw [readAsString, fails, readLoop_hangs]
  rfl

example : ∃ n₀, ∀ n, n₀ ≤ n → readAsString n (some ⟨"RoadGeometry:\n".toList, false⟩) "old".toList =
    some ("RoadGeometry:\n".toList, true) :=
  (file_read_partial "old".toList).1 ⟨_, false⟩ rfl

example : ∀ n, readAsString n (some ⟨[], true⟩) "old".toList = none := failed_read_hangs ⟨[], true⟩ rfl _

end Maliput.Props
