/-
Specification of the structure of an ENDF tape (ENDF-6 manual, section 0.6), independent of the splitter.
-/
namespace Verif.Spec

abbrev Line := List Char

/-- How lines are read: control numbers MAT, MF, MT (if readable), whether all six fields are zero, and
whether the line is blank. -/
structure LineReader where
  ctrl : Line → Option (Int × Int × Int)
  zero : Line → Prop
  blank : Line → Prop

/-- a data line of section `(mat, mf, mt)`: all three numbers differ from zero -/
def LineReader.IsData (r : LineReader) (mat mf mt : Int) (l : Line) : Prop :=
  ¬ r.blank l ∧ r.ctrl l = some (mat, mf, mt) ∧ mat ≠ 0 ∧ mf ≠ 0 ∧ mt ≠ 0

/-- an end record: MT = 0 and all fields are zero -/
def LineReader.IsEnd (r : LineReader) (mat mf : Int) (l : Line) : Prop :=
  ¬ r.blank l ∧ r.ctrl l = some (mat, mf, 0) ∧ r.zero l

/-- MT section: data lines and SEND -/
structure TSec where
  mt : Int
  data : List Line
  send : Line

/-- MF file: sections and FEND -/
structure TFile where
  mf : Int
  secs : List TSec
  fend : Line

/-- material: files and MEND -/
structure TMat where
  mat : Int
  files : List TFile
  mend : Line

/-- tape: TPID, materials, TEND and trailing lines -/
structure Tape where
  tpid : Line
  mats : List TMat
  tend : Line
  trail : List Line

def TSec.lines (s : TSec) : List Line := s.data ++ [s.send]
def TFile.lines (f : TFile) : List Line := (f.secs.map TSec.lines).flatten ++ [f.fend]
def TMat.lines (m : TMat) : List Line := (m.files.map TFile.lines).flatten ++ [m.mend]
def Tape.lines (t : Tape) : List Line :=
  t.tpid :: ((t.mats.map TMat.lines).flatten ++ t.tend :: t.trail)

def TSec.WF (r : LineReader) (mat mf : Int) (s : TSec) : Prop :=
  s.data ≠ [] ∧ (∀ l ∈ s.data, r.IsData mat mf s.mt l) ∧ r.IsEnd mat mf s.send

def TFile.WF (r : LineReader) (mat : Int) (f : TFile) : Prop :=
  f.secs ≠ [] ∧ (∀ s ∈ f.secs, s.WF r mat f.mf) ∧ r.IsEnd mat 0 f.fend

def TMat.WF (r : LineReader) (m : TMat) : Prop :=
  m.files ≠ [] ∧ (∀ f ∈ m.files, f.WF r m.mat) ∧ r.IsEnd 0 0 m.mend

def Tape.WF (r : LineReader) (t : Tape) : Prop :=
  (¬ r.blank t.tpid ∧ ∃ mat, r.ctrl t.tpid = some (mat, 0, 0)) ∧ (∀ m ∈ t.mats, m.WF r) ∧
    r.IsEnd (-1) 0 t.tend ∧ ∀ l ∈ t.trail, r.blank l

end Verif.Spec
