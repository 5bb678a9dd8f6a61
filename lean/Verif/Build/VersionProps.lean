import Verif.Build.VersionLemmas
/-!
C101: the version a build reports, the version the build system works with and the name of the package are what
`product.version` and the number of commits say.
-/
namespace Verif.Build

/-- Specification: `product.version` says the version `g`: three numbers, the third ended by something else than a digit, then
a dash that may be missing, then the tag up to the end of the line. -/
def Says (d : Char → Bool) (contents : List Char) (g : Groups) : Prop :=
  Number d g.major ∧ Number d g.minor ∧ Number d g.release ∧ '\n' ∉ g.tag ∧
  ∃ sep rest, contents = g.major ++ '.' :: (g.minor ++ '.' :: (g.release ++ (sep ++ (g.tag ++ rest)))) ∧
    (∀ e, (sep ++ (g.tag ++ rest)).head? = some e → d e = false) ∧
    (rest = [] ∨ rest.head? = some '\n') ∧
    (sep = ['-'] ∨ (sep = [] ∧ (g.tag ++ rest).head? ≠ some '-'))

/-- The decimal digits. No counterpart in /repo: for the examples. -/
def ascii (c : Char) : Bool := decide ('0' ≤ c ∧ c ≤ '9')

theorem ascii_digits : Digits ascii := ⟨by decide, by decide, by decide, by decide, by decide, by decide, by decide⟩

theorem tagOf_line {w rest : List Char} (hw : '\n' ∉ w) (hr : rest = [] ∨ rest.head? = some '\n') :
    (w ++ rest).takeWhile (· ≠ '\n') = w := by
  rw [takeWhile_all rest (fun c hc => by simpa using fun e : c = '\n' => hw (e ▸ hc))]
  rcases hr with rfl | hr
  · simp
  · cases rest with
    | nil => cases hr
    | cons c r => cases hr; simp

theorem line_cut : ∀ s : List Char, ∃ rest, s = s.takeWhile (· ≠ '\n') ++ rest ∧ (rest = [] ∨ rest.head? = some '\n')
  | [] => ⟨[], rfl, Or.inl rfl⟩
  | c :: s => by
    by_cases hc : c = '\n'
    · exact ⟨c :: s, by simp [hc], Or.inr (by simp [hc])⟩
    · obtain ⟨rest, e, hr⟩ := line_cut s
      refine ⟨rest, ?_, hr⟩
      rw [List.takeWhile_cons, if_pos (by simpa using hc), List.cons_append, ← e]

theorem line_clean (s : List Char) : '\n' ∉ s.takeWhile (· ≠ '\n') := fun h => by
  have := takeWhile_mem h
  simp at this

/-- C101. The version read from `product.version` is the one it says, and no other. -/
theorem groups_iff {d : Char → Bool} (hd : Digits d) {contents : List Char} {g : Groups} :
    groups d contents = some g ↔ Says d contents g := by
  have fwd : ∀ g, Says d contents g → groups d contents = some g := by
    rintro ⟨a, b, c, w⟩ ⟨ha, hb, hc, hw, sep, rest, e, hh, hr, hs⟩
    have e' : contents = product a b c ++ (sep ++ (w ++ rest)) := by rw [e]; simp [product, t]
    rw [groups, e']
    refine three_run hd ha hb hc hh ?_
    rcases hs with rfl | ⟨rfl, hs⟩
    · simp only [tagOf, List.cons_append, List.nil_append, List.head?_cons, if_true, List.tail_cons, tagOf_line hw hr]
    · simp only [tagOf, List.nil_append, if_neg hs, tagOf_line hw hr]
  refine ⟨fun h => ?_, fwd g⟩
  obtain ⟨a, b, c, r, e, ha, hb, hc, _⟩ := three_some h
  obtain ⟨n, r', e1, hn, hr'⟩ := number_cut r c hc
  have key : ∃ g', Says d contents g' := by
    by_cases hm : r'.head? = some '-'
    · cases r' with
      | nil => cases hm
      | cons x r'' =>
        cases hm
        obtain ⟨rest, e2, hrest⟩ := line_cut r''
        refine ⟨⟨a, b, c ++ n, r''.takeWhile (· ≠ '\n')⟩, ha, hb, hn, line_clean _, ['-'], rest, ?_, ?_, hrest, Or.inl rfl⟩
        · simp only [e, e1, product, t]
          rw [← e2]; simp
        · intro x hx; cases hx; exact hd.dash
    · obtain ⟨rest, e2, hrest⟩ := line_cut r'
      refine ⟨⟨a, b, c ++ n, r'.takeWhile (· ≠ '\n')⟩, ha, hb, hn, line_clean _, [], rest, ?_, ?_, hrest, Or.inr ⟨rfl, ?_⟩⟩
      · simp only [e, e1, product, t]
        rw [List.nil_append, ← e2]; simp
      · rw [List.nil_append, ← e2]; exact hr'
      · rw [← e2]; exact hm
  obtain ⟨g', hg'⟩ := key
  have := fwd g' hg'
  rw [h] at this
  cases this
  exact hg'

example : groups ascii shipped = some ⟨t "2", t "0", t "0", t "dev"⟩ := by decide +kernel
example : Says ascii shipped ⟨t "2", t "0", t "0", t "dev"⟩ := (groups_iff ascii_digits).1 (by decide +kernel)

/-- C101. The header is refused exactly when the file does not begin with three numbers; then the build system takes the version
to be 1.0.0 and leaves out the second Source engine. -/
theorem refused_iff {d : Char → Bool} (hd : Digits d) {contents short count : List Char} :
    (header d contents short count = none ↔
      ¬ ∃ a b c r, contents = a ++ '.' :: (b ++ '.' :: (c ++ r)) ∧ Number d a ∧ Number d b ∧ Number d c) ∧
    (header d contents short count = none →
      productVersion d contents = t "1.0.0" ∧ shouldIncludeSdk (productVersion d contents) true = false) := by
  have none_iff : groups d contents = none ↔
      ¬ ∃ a b c r, contents = a ++ '.' :: (b ++ '.' :: (c ++ r)) ∧ Number d a ∧ Number d b ∧ Number d c := by
    constructor
    · rintro h ⟨a, b, c, r, e, ha, hb, hc⟩
      obtain ⟨n, r', e1, hn, hr'⟩ := number_cut r c hc
      have e' : contents = product a b (c ++ n) ++ r' := by rw [e, e1]; simp [product, t]
      have h2 : groups d contents = some ⟨a, b, c ++ n, tagOf r'⟩ := by
        rw [groups, e']; exact three_run hd ha hb hn hr' rfl
      rw [h] at h2; cases h2
    · intro h
      cases hg : groups d contents with
      | none => rfl
      | some g =>
        obtain ⟨a, b, c, r, e, ha, hb, hc, _⟩ := three_some hg
        exact absurd ⟨a, b, c, r, by rw [e]; simp [product, t], ha, hb, hc⟩ h
  have hh : header d contents short count = none ↔ groups d contents = none := by simp [header]
  refine ⟨hh.trans none_iff, fun h => ?_⟩
  have hn := none_iff.1 (hh.1 h)
  have : productVersion d contents = t "1.0.0" := by
    unfold productVersion
    split
    · rename_i v hv
      obtain ⟨a, b, c, r, e, ha, hb, hc, _⟩ := three_some hv
      exact absurd ⟨a, b, c, r, by rw [e]; simp [product, t], ha, hb, hc⟩ hn
    · rfl
  exact ⟨this, by rw [this]; decide⟩

example : header ascii (t "v2.0.0") (t "abc") (t "7") = none := by decide +kernel

/-- C101. Where the header is written, the build system works with the same three numbers. -/
theorem productVersion_agrees {d : Char → Bool} (hd : Digits d) {contents : List Char} {g : Groups}
    (h : groups d contents = some g) : productVersion d contents = g.major ++ '.' :: (g.minor ++ '.' :: g.release) := by
  obtain ⟨ha, hb, hc, _, sep, rest, e, hh, _⟩ := (groups_iff hd).1 h
  have e' : contents = product g.major g.minor g.release ++ (sep ++ (g.tag ++ rest)) := by rw [e]; simp [product, t]
  have := three_run hd (k := fun a b c _ => some (product a b c)) ha hb hc hh rfl
  rw [← e'] at this
  rw [productVersion, this]
  simp [product, t]

example : productVersion ascii shipped = t "2.0.0" ∧ shouldIncludeSdk (productVersion ascii shipped) true = true := by decide +kernel

/-- C101. The version text: the numbers alone, with the tag, or with the tag `dev` and the number of commits. -/
theorem version_text (g : Groups) (count : List Char) :
    fullString g count = g.major ++ '.' :: (g.minor ++ '.' :: g.release) ++
      (if g.tag = [] then [] else if g.tag = ['d', 'e', 'v'] then '-' :: 'd' :: 'e' :: 'v' :: '+' :: count else '-' :: g.tag) := by
  unfold fullString
  by_cases h0 : g.tag = []
  · simp [h0, product, t]
  · by_cases h1 : g.tag = ['d', 'e', 'v']
    · simp [h1, product, t]
    · simp [h0, h1, product, t]

example : fullString ⟨t "2", t "0", t "0", t "dev"⟩ (t "1384") = t "2.0.0-dev+1384" := by decide

/-- C101. The version text determines the version, its tag and, of a `dev` build, the number of commits, as long as no tag
contains a plus sign. -/
theorem version_determines {d : Char → Bool} (hd : Digits d) {s s' count count' : List Char} {g g' : Groups}
    (h : groups d s = some g) (h' : groups d s' = some g')
    (hp : '+' ∉ g.tag) (hp' : '+' ∉ g'.tag) (hn : '\n' ∉ count) (hn' : '\n' ∉ count')
    (e : fullString g count = fullString g' count') :
    g = g' ∧ (g.tag = t "dev" → count = count') := by
  have back : ∀ {s count : List Char} {g : Groups}, groups d s = some g → '\n' ∉ count →
      groups d (fullString g count) =
        some { g with tag := if g.tag = t "dev" then t "dev+" ++ count else g.tag } := by
    intro s count g h hn
    obtain ⟨ha, hb, hc, hw, _⟩ := (groups_iff hd).1 h
    refine (groups_iff hd).2 ?_
    by_cases h0 : g.tag = []
    · refine ⟨ha, hb, hc, by simp [h0, t], [], [], ?_, ?_, Or.inl rfl, Or.inr ⟨rfl, ?_⟩⟩ <;>
        simp [version_text, h0, t]
    · by_cases h1 : g.tag = t "dev"
      · refine ⟨ha, hb, hc, by simp [h1, t, hn], ['-'], [], ?_, ?_, Or.inl rfl, Or.inl rfl⟩
        · simp [version_text, h1, t]
        · intro x hx; cases hx; exact hd.dash
      · refine ⟨ha, hb, hc, by simp [h1, hw], ['-'], [], ?_, ?_, Or.inl rfl, Or.inl rfl⟩
        · have h2 : g.tag ≠ ['d', 'e', 'v'] := h1
          simp [version_text, h0, h1, h2]
        · intro x hx; cases hx; exact hd.dash
  have b := back h hn
  rw [e, back h' hn'] at b
  injection b with b
  injection b with b1 b2 b3 b4
  have plus_in : ∀ c : List Char, '+' ∈ t "dev+" ++ c := fun c => by simp [t]
  by_cases h1 : g.tag = t "dev"
  · by_cases h2 : g'.tag = t "dev"
    · rw [if_pos h1, if_pos h2] at b4
      refine ⟨?_, fun _ => (List.append_cancel_left b4).symm⟩
      cases g; cases g'; simp_all
    · rw [if_pos h1, if_neg h2] at b4
      exact absurd (b4 ▸ plus_in count) hp'
  · by_cases h2 : g'.tag = t "dev"
    · rw [if_neg h1, if_pos h2] at b4
      exact absurd (b4 ▸ plus_in count') hp
    · rw [if_neg h1, if_neg h2] at b4
      refine ⟨?_, fun h => absurd h h1⟩
      cases g; cases g'; simp_all

example : groups ascii (t "2.0.0-dev") = some ⟨t "2", t "0", t "0", t "dev"⟩ ∧
    fullString ⟨t "2", t "0", t "0", t "dev"⟩ (t "1384") ≠ fullString ⟨t "2", t "0", t "0", t "dev"⟩ (t "1385") := by
  decide +kernel

theorem not_digit {d : Char → Bool} {n : List Char} {c : Char} (hn : Number d n) (hc : d c = false) : c ∉ n := fun e => by
  have := hn.2 _ e
  rw [hc] at this
  cases this

theorem cString_quoted {w r : List Char} (h : Quotable w) : cString ('"' :: (w ++ '"' :: r)) = some w := by
  have e : (w ++ '"' :: r).takeWhile (· ≠ '"') = w := by
    rw [takeWhile_all _ (fun c hc => by simpa using fun e : c = '"' => h.1 (e ▸ hc))]; simp
  unfold cString
  simp only [e]
  rw [if_neg]
  rintro (hb | hl)
  · exact h.2 hb
  · simp at hl

/-- C101. What the compiler reads from the header: each macro is the string, or the list of numbers, it is named for. -/
theorem header_values {d : Char → Bool} {contents short count : List Char} {g : Groups} (hd : Digits d)
    (h : groups d contents = some g) (hg : Quotable g.tag) (hs : Quotable short) (hc : Quotable count) :
    ∃ ls, header d contents short count = some ls ∧
      (valueOf (t "MMS_BUILD_TAG") ls).bind cString = some g.tag ∧
      (valueOf (t "MMS_BUILD_CSET") ls).bind cString = some short ∧
      (valueOf (t "MMS_BUILD_MAJOR") ls).bind cString = some g.major ∧
      (valueOf (t "MMS_BUILD_MINOR") ls).bind cString = some g.minor ∧
      (valueOf (t "MMS_BUILD_RELEASE") ls).bind cString = some g.release ∧
      (valueOf (t "MMS_BUILD_LOCAL_REV") ls).bind cString = some count ∧
      valueOf (t "MMS_BUILD_UNIQUEID") ls = some ('"' :: (count ++ t ":\" MMS_BUILD_CSET")) ∧
      (valueOf (t "MMS_VERSION_STRING") ls).bind cString = some (fullString g count) ∧
      valueOf (t "MMS_VERSION_FILE") ls = some (g.major ++ ',' :: (g.minor ++ ',' :: (g.release ++ [',', '0']))) := by
  obtain ⟨na, nb, nr, _⟩ := (groups_iff hd).1 h
  have qn : ∀ {n : List Char}, Number d n → Quotable n := fun hn => ⟨not_digit hn hd.quote, not_digit hn hd.backslash⟩
  have ha := qn na
  have hb := qn nb
  have hr := qn nr
  have hf : Quotable (fullString g count) := by
    rw [version_text]
    have h1 := ha.1; have h2 := ha.2; have h3 := hb.1; have h4 := hb.2; have h5 := hr.1; have h6 := hr.2
    have h7 := hg.1; have h8 := hg.2; have h9 := hc.1; have h10 := hc.2
    constructor <;> split <;> try split
    all_goals simp_all
  refine ⟨headerLines g short count, by rw [header, h]; rfl, ?_, ?_, ?_, ?_, ?_, ?_, ?_, ?_, ?_⟩
  · exact cString_quoted (r := []) hg
  · exact cString_quoted (r := []) hs
  · exact cString_quoted (r := []) ha
  · exact cString_quoted (r := []) hb
  · exact cString_quoted (r := []) hr
  · exact cString_quoted (r := []) hc
  · rfl
  · exact cString_quoted (r := []) hf
  · obtain ⟨a, b, c, w⟩ := g
    cases a with
    | nil => exact absurd rfl na.1
    | cons x a =>
      have n1 : x ≠ ' ' := fun e => not_digit na hd.blank (e ▸ List.mem_cons_self ..)
      have n2 : x ≠ '\t' := fun e => not_digit na hd.tab (e ▸ List.mem_cons_self ..)
      show some (List.dropWhile _ ('\t' :: ((((((x :: a) ++ [',']) ++ b) ++ [',']) ++ c) ++ [',', '0']))) = _
      simp [n1, n2]

example : ((header ascii shipped (t "abcdef0") (t "1384")).bind (valueOf (t "MMS_VERSION_FILE"))) = some (t "2,0,0,0") ∧
    Quotable (t "2.0.0-dev+1384") := by
  constructor
  · decide +kernel
  · constructor <;> decide

/-- C101. For a version with no tag or with the tag `dev`, both scripts that make the package name it after the three numbers and
the number of commits. -/
theorem package_named {d : Char → Bool} (hd : Digits d) {a b c tag tail count : List Char}
    (ha : Number d a) (hb : Number d b) (hc : Number d c) (ht : tag = [] ∨ tag = t "-dev") (hl : tail = [] ∨ tail = ['\n']) :
    packageName (product a b c ++ tag ++ tail) count none =
      t "mmsource-" ++ (a ++ '.' :: (b ++ '.' :: c)) ++ t "-git" ++ count ++ t "-linux.tar.gz" ∧
    workflowName (product a b c ++ tag ++ tail) count = packageName (product a b c ++ tag ++ tail) count none := by
  have num : ∀ {n : List Char}, Number d n → '-' ∉ n ∧ '\n' ∉ n := fun hn =>
    ⟨not_digit hn hd.dash, not_digit hn hd.newline⟩
  have hdash : '-' ∉ product a b c := by simp [product, t, (num ha).1, (num hb).1, (num hc).1]
  have hnl : '\n' ∉ product a b c ++ tag := by
    rcases ht with rfl | rfl <;> simp [product, t, (num ha).2, (num hb).2, (num hc).2]
  have hfirst : firstLine (product a b c ++ tag ++ tail) = product a b c ++ tag :=
    tagOf_line hnl (by rcases hl with rfl | rfl <;> simp)
  have hdrop : dropDev (product a b c ++ tag) = product a b c := by
    rw [dropDev_append _ hdash]
    have : dropDev tag = [] := by rcases ht with rfl | rfl <;> decide +kernel
    rw [this, List.append_nil]
  have hshell : shellText (product a b c ++ tag ++ tail) = product a b c ++ tag := by
    have keep : ∀ {s : List Char}, '\n' ∉ s → (s.reverse.dropWhile (· = '\n')).reverse = s := by
      intro s hs
      have : s.reverse.dropWhile (· = '\n') = s.reverse := by
        cases hr : s.reverse with
        | nil => rfl
        | cons x r =>
          have hx : x ≠ '\n' := fun e => hs (by rw [← List.mem_reverse, hr, e]; exact List.mem_cons_self ..)
          simp [hx]
      rw [this, List.reverse_reverse]
    unfold shellText
    rcases hl with rfl | rfl
    · rw [List.append_nil]; exact keep hnl
    · rw [List.reverse_append]
      show (List.dropWhile _ ('\n' :: _)).reverse = _
      rw [List.dropWhile_cons, if_pos (by decide)]
      exact keep hnl
  have hcut : cutDev (product a b c ++ tag) = product a b c := by
    unfold cutDev
    rcases ht with rfl | rfl
    · rw [List.append_nil, if_neg]
      intro hs
      obtain ⟨r, hr⟩ := List.isSuffixOf_iff_suffix.1 hs
      exact hdash (by rw [← hr]; simp [t])
    · rw [if_pos (List.isSuffixOf_iff_suffix.2 ⟨_, rfl⟩)]
      simp [t]
  constructor
  · have e1 : t "-linux.tar.gz" = t "-linux" ++ t ".tar.gz" := by decide
    have e2 : product a b c = a ++ '.' :: (b ++ '.' :: c) := by simp [product, t]
    unfold packageName
    rw [hfirst, hdrop, e1, e2]
    simp only [List.append_assoc, List.append_nil]
  · have e1 : t "-linux" = t "-" ++ t "linux" := by decide
    unfold packageName workflowName
    rw [hfirst, hdrop, hshell, hcut, e1]
    simp only [List.append_assoc, List.append_nil]

example : packageName shipped (t "1384") none = t "mmsource-2.0.0-git1384-linux.tar.gz" := by decide +kernel

/-- C101. The version compiled in without the generated header has the numbers of `product.version`. -/
theorem manual_numbers : groups ascii shipped = some { manual with tag := t "dev" } := by decide +kernel

/-- C101, finding: with another tag that begins with `dev` the package can be named after another release: `2.0.0-dev2` and `2.0.02` give
the same package, and the two scripts that make packages disagree. -/
theorem package_of_other_release (count : List Char) :
    packageName (t "2.0.0-dev2\n") count none = packageName (t "2.0.02\n") count none ∧
    workflowName (t "2.0.0-dev2\n") count ≠ packageName (t "2.0.0-dev2\n") count none := by
  have h1 : dropDev (firstLine (t "2.0.0-dev2\n")) = t "2.0.02" := by decide +kernel
  have h2 : dropDev (firstLine (t "2.0.02\n")) = t "2.0.02" := by decide +kernel
  have h3 : cutDev (shellText (t "2.0.0-dev2\n")) = t "2.0.0-dev2" := by decide +kernel
  constructor
  · unfold packageName; rw [h1, h2]
  · intro h
    unfold workflowName packageName at h
    rw [h1, h3] at h
    have := congrArg List.length h
    simp only [List.length_append, List.length_nil] at this
    have l1 : (t "2.0.0-dev2").length = 10 := by decide
    have l2 : (t "2.0.02").length = 6 := by decide
    have l3 : (t "-").length + (t "linux").length = (t "-linux").length := by decide
    omega

/-- C101, finding: a tag with a plus sign can pass for a number of commits: the release tagged `dev+5` and the fifth `dev` build
report the same version. -/
theorem plus_tag_collides : ∃ g g' : Groups, groups ascii (t "2.0.0-dev+5") = some g ∧ groups ascii (t "2.0.0-dev") = some g' ∧
    g ≠ g' ∧ ∀ count, fullString g count = fullString g' (t "5") :=
  ⟨⟨t "2", t "0", t "0", t "dev+5"⟩, ⟨t "2", t "0", t "0", t "dev"⟩, by decide +kernel, by decide +kernel, by decide,
    fun _ => rfl⟩

/-- C101, finding: a quote in the tag ends the string in the header early: the tag compiled in is not the tag of the file. -/
theorem quote_cuts_tag : ((header ascii (t "2.0.0-a\"b") (t "abc") (t "7")).bind (valueOf (t "MMS_BUILD_TAG"))).bind cString =
    some (t "a") := by decide +kernel

#print axioms groups_iff
#print axioms refused_iff
#print axioms productVersion_agrees
#print axioms version_text
#print axioms version_determines
#print axioms header_values
#print axioms package_named
#print axioms manual_numbers
#print axioms package_of_other_release
#print axioms plus_tag_collides
#print axioms quote_cuts_tag
end Verif.Build
