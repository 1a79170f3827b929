import Verif.Model.Records
import Verif.Model.Dict
/-
Model of `split_sections` (endf_utils.py:458-589) and of the assembly of a tape by `EndfParser.write`
(endf_parser.py:990-1146) around the section texts.
-/
namespace Verif

/-- options of `split_sections` (endf_utils.py:478-480); `fields` are the field reading options -/
structure SplitOpts where
  fields : ROpts := {}
  ignoreBlank : Bool := false
  ignoreSend : Bool := false
  ignoreTpid : Bool := false

/-- `mfdic`: MF → MT → lines -/
abbrev MfDic := Dict Int (Dict Int (List Str))

/-- `mfdic.setdefault(mf, {}).setdefault(mt, []).append(line)` (endf_utils.py:500-501,544-545) -/
def addLine (mf mt : Int) (line : Str) (d : MfDic) : MfDic :=
  let sub := (dGet mf d).getD []
  let ls := (dGet mt sub).getD []
  dSet mf (dSet mt (ls ++ [line]) sub) d

/-- endf_utils.py:504-507: loop state; `last` is only looked at when `level ≥ 1`, and is set then -/
structure SplitState where
  dic : MfDic
  level : Int
  last : Ctrl

/-- endf_utils.py:529-542: consistency checks for a regular record -/
def regularOk (st : SplitState) (c : Ctrl) : Bool :=
  !(decide (3 ≤ st.level) && decide (st.last.mt ≠ c.mt)) &&
  !(decide (2 ≤ st.level) && decide (st.last.mf ≠ c.mf)) &&
  !(decide (1 ≤ st.level) && decide (st.last.mat ≠ c.mat))

/-- endf_utils.py:557-576: checks for an end record -/
def endOk (st : SplitState) (c : Ctrl) : Bool :=
  !(decide (2 ≤ st.level) && decide (c.mat ≠ st.last.mat)) &&
  !(decide (st.level = 1) && decide (c.mat ≠ 0)) &&
  !(decide (3 ≤ st.level) && decide (c.mf ≠ st.last.mf)) &&
  !(decide (st.level < 3) && decide (c.mf ≠ 0)) &&
  !(decide (st.level = 0) && decide (c.mat ≠ -1))

/-- endf_utils.py:508-579: body of the loop -/
def splitStep (o : SplitOpts) (st : SplitState) (line : Str) : Res SplitState :=
  if strip line = [] then
    if st.level = -1 then .ok st
    else if o.ignoreBlank then .ok st
    else .error .blankLine
  else if st.level = -1 then .error .unexpectedControl
  else do
    let c ← readCtrl o.fields.width line
    if c.mat ≠ 0 ∧ c.mf ≠ 0 ∧ c.mt ≠ 0 then
      if !o.ignoreSend && !regularOk st c then .error .unexpectedControl
      else .ok ⟨addLine c.mf c.mt line st.dic, 3, c⟩
    else if o.ignoreSend then .ok st
    else if !endOk st c then .error .unexpectedControl
    else
      let _ ← readSend o.fields [line] 0
      .ok { st with level := st.level - 1 }

def splitLoop (o : SplitOpts) : SplitState → List Str → Res SplitState
  | st, [] => .ok st
  | st, l :: ls => do splitLoop o (← splitStep o st l) ls

/-- endf_utils.py:482-486: skip leading blank lines; IndexError when the input is exhausted -/
def splitLead (o : SplitOpts) : List Str → Res (List Str)
  | [] => .error .indexError
  | l :: ls =>
    if strip l = [] then
      if o.ignoreBlank then splitLead o ls else .error .blankLine
    else .ok (l :: ls)

/-- endf_utils.py:458-589 `split_sections`; `first` is `lines[0]`, which the code stores as tape head -/
def splitSections (o : SplitOpts) (lines : List Str) : Res MfDic := do
  match ← splitLead o lines with
  | [] => .error .indexError
  | l :: ls =>
    let th ← readCtrl o.fields.width l
    let st ←
      if th.mf ≠ 0 ∨ th.mt ≠ 0 then
        if !o.ignoreTpid then .error .unexpectedControl
        else splitLoop o ⟨[], 0, ⟨0, 0, 0⟩⟩ (l :: ls)
      else splitLoop o ⟨addLine th.mf th.mt (lines.headD []) [], 0, ⟨0, 0, 0⟩⟩ ls
    if !o.ignoreSend && decide (0 ≤ st.level) then .error .unexpectedEnd
    else .ok st.dic

end Verif
