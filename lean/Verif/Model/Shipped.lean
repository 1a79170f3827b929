import Verif.Model.Recipe
/-
The recipes in `endf_parserpy/endf_recipes` as syntax trees.  Written by `tools/recipes2lean.py` from the texts; comments,
stop messages, the names of the interpolation variables of TAB2 records and the texts of decimal numbers are left out.
-/
namespace Verif.Shipped

def seqs : List Prog → Prog
  | [] => .skip
  | [a] => a
  | a :: as => .seq a (seqs as)

def v (n : Name) : Expr := .var ⟨n, []⟩
def x (n : Name) (is : List Idx) : Expr := .var ⟨n, is⟩
def n (k : Int) : Expr := .num (.int k)
def f (q : Rat) : Expr := .num (.num (.flt q))

def lseqs : List LBody → LBody
  | [] => .nil
  | [a] => a
  | a :: as => .seq a (lseqs as)

/-- endf6/endf_recipe_mf0_mt0.py:12-15 -/
def mf0_mt0_tapehead : Prog :=
  seqs [
    .act (.text { mf := some 0, mt := some 0 } [⟨(some ⟨"TAPEDESCR", []⟩), none⟩])]

/-- endf6/endf_recipe_mf10.py:12-20 -/
def mf10 : Prog :=
  seqs [
    .act (.cont true { mf := some 10 } [v "ZA", v "AWR", v "LIS", n 0, v "NS", n 0]),
    .loop "k" (n 1) (v "NS") (seqs [
      .sect ⟨"subsection", [.var "k"]⟩ (seqs [
        .act (.tab1 { mf := some 10 } [v "QM", v "QI", v "IZAP", v "LFS", v "NR", v "NP"] ⟨"E", []⟩ ⟨"sigma", []⟩ none)])]),
    .act .send]

/-- endf6/endf_recipe_mf12.py:12-36 -/
def mf12 : Prog :=
  seqs [
    .ite (.cmp .eq (v "LO") (n 1)) (some (n 1)) (seqs [
      .act (.cont true { mf := some 12 } [v "ZA", v "AWR", v "LO", n 0, v "NK", n 0]),
      .ite (.cmp .gt (v "NK") (n 1)) none (seqs [
        .act (.tab1 { mf := some 12 } [f 0, f 0, n 0, n 0, v "NR", v "NP"] ⟨"Eint", []⟩ ⟨"Y", []⟩ none)])
      (.skip),
      .loop "k" (n 1) (v "NK") (seqs [
        .act (.tab1 { mf := some 12 } [x "Eg" [.var "k"], x "ES" [.var "k"], x "LP" [.var "k"], x "LF" [.var "k"], v "NR", v "NP"] ⟨"Eint", []⟩ ⟨"y", []⟩ (some ⟨"table", [.var "k"]⟩))])])
    (.ite (.cmp .eq (v "LO") (n 2)) (some (n 1)) (seqs [
      .act (.cont true { mf := some 12 } [v "ZA", v "AWR", v "LO", v "LG", v "NS", n 0]),
      .ite (.cmp .eq (v "LG") (n 1)) none (seqs [
        .act (.list { mf := some 12 } [v "ES_NS", f 0, v "LP", n 0, (.mul (n 2) (v "NT")), v "NT"] (lseqs [(.loop "i" (n 1) (v "NT") (lseqs [(.expr (x "ES" [.var "i"])), (.expr (x "TP" [.var "i"]))]))]) none)])
      (.ite (.cmp .eq (v "LG") (n 2)) none (seqs [
        .act (.list { mf := some 12 } [v "ES_NS", f 0, v "LP", n 0, (.mul (.add (v "LG") (n 1)) (v "NT")), v "NT"] (lseqs [(.loop "i" (n 1) (v "NT") (lseqs [(.expr (x "ES" [.var "i"])), (.expr (x "TP" [.var "i"])), (.expr (x "GP" [.var "i"]))]))]) none)])
      (.skip))])
    (.skip)),
    .act .send]

/-- endf6/endf_recipe_mf13.py:12-23 -/
def mf13 : Prog :=
  seqs [
    .act (.cont true { mf := some 13 } [v "ZA", v "AWR", n 0, n 0, v "NK", n 0]),
    .ite (.cmp .gt (v "NK") (n 1)) none (seqs [
      .act (.tab1 { mf := some 13 } [f 0, f 0, n 0, n 0, v "NR", v "NP"] ⟨"E", []⟩ ⟨"sigma_tot", []⟩ none)])
    (.skip),
    .loop "k" (n 1) (v "NK") (seqs [
      .sect ⟨"subsection", [.var "k"]⟩ (seqs [
        .act (.tab1 { mf := some 13 } [v "EG", v "ES", v "LP", v "LF", v "NR", v "NP"] ⟨"E", []⟩ ⟨"sigma", []⟩ none)])]),
    .act .send]

/-- endf6/endf_recipe_mf14.py:12-40 -/
def mf14 : Prog :=
  seqs [
    .ite (.cmp .eq (v "LI") (n 1)) (some (n 1)) (seqs [
      .act (.cont true { mf := some 14 } [v "ZA", v "AWR", v "LI", n 0, v "NK", n 0])])
    (.ite (.and (.cmp .eq (v "LI") (n 0)) (.cmp .eq (v "LTT") (n 1))) (some (n 1)) (seqs [
      .act (.cont true { mf := some 14 } [v "ZA", v "AWR", v "LI", v "LTT", v "NK", v "NI"]),
      .loop "k" (n 1) (v "NI") (seqs [
        .act (.cont false { mf := some 14 } [x "EG" [.var "k"], x "ES" [.var "k"], n 0, n 0, n 0, n 0])]),
      .loop "k" (.add (v "NI") (n 1)) (.add (v "NI") (.sub (v "NK") (v "NI"))) (seqs [
        .act (.tab2 { mf := some 14 } [x "EG" [.var "k"], x "ES" [.var "k"], n 0, n 0, v "NR", x "NE" [.var "k"]] (some ⟨"E_interpol", [.var "k"]⟩)),
        .loop "l" (n 1) (x "NE" [.var "k"]) (seqs [
          .act (.list { mf := some 14 } [f 0, x "E" [.var "k", .var "l"], n 0, n 0, x "NL" [.var "k", .var "l"], n 0] (lseqs [(.loop "m" (n 1) (x "NL" [.var "k", .var "l"]) (lseqs [(.expr (x "a" [.var "k", .var "l", .var "m"]))]))]) none)])])])
    (.ite (.and (.cmp .eq (v "LI") (n 0)) (.cmp .eq (v "LTT") (n 2))) (some (n 1)) (seqs [
      .act (.cont true { mf := some 14 } [v "ZA", v "AWR", v "LI", v "LTT", v "NK", v "NI"]),
      .act .stop])
    (.skip))),
    .act .send]

/-- endf6/endf_recipe_mf15.py:12-32 -/
def mf15 : Prog :=
  seqs [
    .act (.cont true { mf := some 15 } [v "ZA", v "AWR", n 0, n 0, v "NC", n 0]),
    .loop "j" (n 1) (v "NC") (seqs [
      .sect ⟨"subsection", [.var "j"]⟩ (seqs [
        .ite (.cmp .eq (v "LF") (n 1)) (some (n 1)) (seqs [
          .act (.tab1 { mf := some 15 } [f 0, f 0, n 0, v "LF", v "NR", v "NP"] ⟨"Eint", []⟩ ⟨"p", []⟩ (some ⟨"rtfm_tab1", []⟩)),
          .act (.tab2 { mf := some 15 } [f 0, f 0, n 0, n 0, v "NR", v "NE"] none),
          .loop "k" (n 1) (v "NE") (seqs [
            .act (.tab1 { mf := some 15 } [f 0, x "E" [.var "k"], n 0, n 0, v "NR", v "NP"] ⟨"Egamma", []⟩ ⟨"g", []⟩ (some ⟨"rtfm1_tab", [.var "k"]⟩))])])
        (.skip)])]),
    .act .send]

/-- endf6/endf_recipe_mf1_mt451.py:12-140 -/
def mf1_mt451 : Prog :=
  seqs [
    .act (.cont true { mf := some 1, mt := some 451 } [v "ZA", v "AWR", v "LRP", v "LFI", v "NLIB", v "NMOD"]),
    .act (.cont false { mf := some 1, mt := some 451 } [v "ELIS", v "STA", v "LIS", v "LISO", n 0, v "NFOR"]),
    .act (.cont false { mf := some 1, mt := some 451 } [v "AWI", v "EMAX", v "LREL", n 0, v "NSUB", v "NVER"]),
    .act (.cont false { mf := some 1, mt := some 451 } [v "TEMP", f 0, v "LDRV", n 0, v "NWD", v "NXC"]),
    .act (.text { mf := some 1, mt := some 451 } [⟨(some ⟨"ZSYMAM", []⟩), (some 11)⟩, ⟨(some ⟨"ALAB", []⟩), (some 11)⟩, ⟨(some ⟨"EDATE", []⟩), (some 10)⟩, ⟨none, (some 1)⟩, ⟨(some ⟨"AUTH", []⟩), (some 33)⟩]),
    .act (.text { mf := some 1, mt := some 451 } [⟨none, (some 1)⟩, ⟨(some ⟨"REF", []⟩), (some 21)⟩, ⟨(some ⟨"DDATE", []⟩), (some 10)⟩, ⟨none, (some 1)⟩, ⟨(some ⟨"RDATE", []⟩), (some 10)⟩, ⟨none, (some 12)⟩, ⟨(some ⟨"ENDATE", []⟩), (some 8)⟩, ⟨none, (some 3)⟩]),
    .loop "i" (n 1) (n 3) (seqs [
      .act (.text { mf := some 1, mt := some 451 } [⟨(some ⟨"HSUB", [.var "i"]⟩), none⟩])]),
    .loop "i" (n 1) (.sub (v "NWD") (n 5)) (seqs [
      .act (.text { mf := some 1, mt := some 451 } [⟨(some ⟨"DESCRIPTION", [.var "i"]⟩), none⟩])]),
    .loop "i" (n 1) (v "NXC") (seqs [
      .act (.dir { mf := some 1, mt := some 451 } [x "MFx" [.var "i"], x "MTx" [.var "i"], x "NCx" [.var "i"], x "MOD" [.var "i"]])]),
    .act .send]

/-- endf6/endf_recipe_mf1_mt452.py:12-21 -/
def mf1_mt452 : Prog :=
  seqs [
    .act (.cont true { mf := some 1, mt := some 452 } [v "ZA", v "AWR", n 0, v "LNU", n 0, n 0]),
    .ite (.cmp .eq (v "LNU") (n 1)) none (seqs [
      .act (.list { mf := some 1, mt := some 452 } [f 0, f 0, n 0, n 0, v "NC", n 0] (lseqs [(.loop "k" (n 1) (v "NC") (lseqs [(.expr (x "C" [.var "k"]))]))]) none)])
    (.ite (.cmp .eq (v "LNU") (n 2)) none (seqs [
      .act (.tab1 { mf := some 1, mt := some 452 } [f 0, f 0, n 0, n 0, v "NR", v "NP"] ⟨"Eint", []⟩ ⟨"nu", []⟩ none)])
    (.skip)),
    .act .send]

/-- endf6/endf_recipe_mf1_mt455.py:12-38 -/
def mf1_mt455 : Prog :=
  seqs [
    .act (.cont true { mf := some 1, mt := some 455 } [v "ZA", v "AWR", v "LDG", v "LNU", n 0, n 0]),
    .ite (.and (.cmp .eq (v "LDG") (n 0)) (.cmp .eq (v "LNU") (n 2))) none (seqs [
      .act (.list { mf := some 1, mt := some 455 } [f 0, f 0, n 0, n 0, v "NNF", n 0] (lseqs [(.loop "k" (n 1) (v "NNF") (lseqs [(.expr (x "lambda" [.var "k"]))]))]) none),
      .act (.tab1 { mf := some 1, mt := some 455 } [f 0, f 0, n 0, n 0, v "NR", v "NP"] ⟨"Eint", []⟩ ⟨"nubar_d", []⟩ none)])
    (.ite (.and (.cmp .eq (v "LDG") (n 1)) (.cmp .eq (v "LNU") (n 2))) none (seqs [
      .act (.tab2 { mf := some 1, mt := some 455 } [f 0, f 0, n 0, n 0, v "NR", v "NE"] none),
      .loop "k" (n 1) (v "NE") (seqs [
        .act (.list { mf := some 1, mt := some 455 } [f 0, x "E" [.var "k"], n 0, n 0, (.mul (v "NNF") (n 2)), n 0] (lseqs [(.loop "l" (n 1) (v "NNF") (lseqs [(.expr (x "lambda" [.var "k", .var "l"])), (.expr (x "alpha" [.var "k", .var "l"]))]))]) none)]),
      .act (.tab1 { mf := some 1, mt := some 455 } [f 0, f 0, n 0, n 0, v "NR", v "NP"] ⟨"Eint", []⟩ ⟨"nubar_d", []⟩ none)])
    (.ite (.and (.cmp .eq (v "LDG") (n 0)) (.cmp .eq (v "LNU") (n 1))) none (seqs [
      .act (.list { mf := some 1, mt := some 455 } [f 0, f 0, n 0, n 0, v "NNF", n 0] (lseqs [(.loop "k" (n 1) (v "NNF") (lseqs [(.expr (x "lambda" [.var "k"]))]))]) none),
      .act (.list { mf := some 1, mt := some 455 } [f 0, f 0, n 0, n 0, n 1, n 0] (lseqs [(.expr (v "nubar_d"))]) none)])
    (.ite (.and (.cmp .eq (v "LDG") (n 1)) (.cmp .eq (v "LNU") (n 1))) none (seqs [
      .act (.tab2 { mf := some 1, mt := some 455 } [f 0, f 0, n 0, n 0, v "NR", v "NE"] none),
      .loop "k" (n 1) (v "NE") (seqs [
        .act (.list { mf := some 1, mt := some 455 } [f 0, v "E1", n 0, n 0, (.mul (v "NNF") (n 2)), n 0] (lseqs [(.loop "l" (n 1) (v "NNF") (lseqs [(.expr (x "lambda" [.var "k", .var "l"])), (.expr (x "alpha" [.var "k", .var "l"]))]))]) none)]),
      .act (.list { mf := some 1, mt := some 455 } [f 0, f 0, n 0, n 0, v "NC", n 0] (lseqs [(.loop "k" (n 1) (v "NC") (lseqs [(.expr (x "nubar_d" [.var "k"]))]))]) none)])
    (.skip)))),
    .act .send]

/-- endf6/endf_recipe_mf1_mt456.py:12-21 -/
def mf1_mt456 : Prog :=
  seqs [
    .act (.cont true { mf := some 1, mt := some 456 } [v "ZA", v "AWR", n 0, v "LNU", n 0, n 0]),
    .ite (.cmp .eq (v "LNU") (n 2)) none (seqs [
      .act (.tab1 { mf := some 1, mt := some 456 } [f 0, f 0, n 0, n 0, v "NR", v "NP"] ⟨"Eint", []⟩ ⟨"nubar_p", []⟩ none)])
    (.ite (.cmp .eq (v "LNU") (n 1)) none (seqs [
      .act (.list { mf := some 1, mt := some 456 } [f 0, f 0, n 0, n 0, n 1, n 0] (lseqs [(.expr (v "nubar_p"))]) none)])
    (.skip)),
    .act .send]

/-- endf6/endf_recipe_mf1_mt458.py:12-37 -/
def mf1_mt458 : Prog :=
  seqs [
    .ite (.and (.cmp .eq (v "LFC") (n 0)) (.cmp .eq (v "NPLY") (n 0))) (some (n 2)) (seqs [
      .act (.cont true { mf := some 1, mt := some 458 } [v "ZA", v "AWR", n 0, v "LFC", n 0, n 0]),
      .act (.list { mf := some 1, mt := some 458 } [f 0, f 0, n 0, v "NPLY", n 18, n 9] (lseqs [(.expr (v "EFR")), (.expr (v "dEFR")), (.expr (v "ENP")), (.expr (v "dENP")), (.expr (v "END")), (.expr (v "dEND")), (.expr (v "EGP")), (.expr (v "dEGP")), (.expr (v "EGD")), (.expr (v "dEGD")), (.expr (v "EB")), (.expr (v "dEB")), (.expr (v "ENU")), (.expr (v "dENU")), (.expr (v "ER")), (.expr (v "dER")), (.expr (v "ET")), (.expr (v "dET"))]) none)])
    (.ite (.and (.cmp .eq (v "LFC") (n 0)) (.cmp .gt (v "NPLY") (n 0))) (some (n 2)) (seqs [
      .act (.cont true { mf := some 1, mt := some 458 } [v "ZA", v "AWR", n 0, v "LFC", n 0, n 0]),
      .act (.list { mf := some 1, mt := some 458 } [f 0, f 0, n 0, v "NPLY", (.mul (n 18) (.add (v "NPLY") (n 1))), (.mul (n 9) (.add (v "NPLY") (n 1)))] (lseqs [(.loop "k" (n 0) (v "NPLY") (lseqs [(.expr (x "c_EFR" [.var "k"])), (.expr (x "dc_EFR" [.var "k"])), (.expr (x "c_ENP" [.var "k"])), (.expr (x "dc_ENP" [.var "k"])), (.expr (x "c_END" [.var "k"])), (.expr (x "dc_END" [.var "k"])), (.expr (x "c_EGP" [.var "k"])), (.expr (x "dc_EGP" [.var "k"])), (.expr (x "c_EGD" [.var "k"])), (.expr (x "dc_EGD" [.var "k"])), (.expr (x "c_EB" [.var "k"])), (.expr (x "dc_EB" [.var "k"])), (.expr (x "c_ENU" [.var "k"])), (.expr (x "dc_ENU" [.var "k"])), (.expr (x "c_ER" [.var "k"])), (.expr (x "dc_ER" [.var "k"])), (.expr (x "c_ET" [.var "k"])), (.expr (x "dc_ET" [.var "k"]))]))]) none)])
    (.ite (.and (.cmp .eq (v "LFC") (n 1)) (.cmp .eq (v "NPLY") (n 0))) (some (n 2)) (seqs [
      .act (.cont true { mf := some 1, mt := some 458 } [v "ZA", v "AWR", n 0, v "LFC", n 0, v "NFC"]),
      .act (.list { mf := some 1, mt := some 458 } [f 0, f 0, n 0, v "NPLY", n 18, n 9] (lseqs [(.expr (v "EFR")), (.expr (v "dEFR")), (.expr (v "ENP")), (.expr (v "dENP")), (.expr (v "END")), (.expr (v "dEND")), (.expr (v "EGP")), (.expr (v "dEGP")), (.expr (v "EGD")), (.expr (v "dEGD")), (.expr (v "EB")), (.expr (v "dEB")), (.expr (v "ENU")), (.expr (v "dENU")), (.expr (v "ER")), (.expr (v "dER")), (.expr (v "ET")), (.expr (v "dET"))]) none),
      .loop "k" (n 1) (v "NFC") (seqs [
        .act (.tab1 { mf := some 1, mt := some 458 } [f 0, f 0, x "LDRV" [.var "k"], x "IFC" [.var "k"], v "NR", v "NP"] ⟨"Eint", []⟩ ⟨"EIFC", []⟩ (some ⟨"fiscomp", [.var "k"]⟩))])])
    (.skip))),
    .act .send]

/-- endf6/endf_recipe_mf1_mt460.py:12-27 -/
def mf1_mt460 : Prog :=
  seqs [
    .ite (.cmp .eq (v "LO") (n 1)) (some (n 1)) (seqs [
      .act (.cont true { mf := some 1, mt := some 460 } [v "ZA", v "AWR", v "LO", n 0, v "NG", n 0]),
      .loop "i" (n 1) (v "NG") (seqs [
        .act (.tab1 { mf := some 1, mt := some 460 } [x "E" [.var "i"], f 0, v "i", n 0, v "NR", v "NP"] ⟨"tint", [.var "i"]⟩ ⟨"T", [.var "i"]⟩ none)])])
    (.ite (.cmp .eq (v "LO") (n 2)) (some (n 1)) (seqs [
      .act (.cont true { mf := some 1, mt := some 460 } [v "ZA", v "AWR", v "LO", n 0, n 0, n 0]),
      .act (.list { mf := some 1, mt := some 460 } [f 0, f 0, n 0, n 0, v "NNF", n 0] (lseqs [(.loop "i" (n 1) (v "NNF") (lseqs [(.expr (x "lambda" [.var "i"]))]))]) none)])
    (.skip)),
    .act .send]

/-- endf6/endf_recipe_mf23.py:12-17 -/
def mf23 : Prog :=
  seqs [
    .act (.cont true { mf := some 23 } [v "ZA", v "AWR", n 0, n 0, n 0, n 0]),
    .act (.tab1 { mf := some 23 } [v "EPE", v "EFL", n 0, n 0, v "NR", v "NP"] ⟨"Eint", []⟩ ⟨"sigma", []⟩ none),
    .act .send]

/-- endf6/endf_recipe_mf26.py:12-16 -/
def mf26 : Prog :=
  seqs [
    .act .stop,
    .act .send]

/-- endf6/endf_recipe_mf27.py:12-17 -/
def mf27 : Prog :=
  seqs [
    .act (.cont true { mf := some 27 } [v "ZA", v "AWR", n 0, n 0, n 0, n 0]),
    .act (.tab1 { mf := some 27 } [f 0, v "Z", n 0, n 0, v "NR", v "NP"] ⟨"xint", []⟩ ⟨"H", []⟩ none),
    .act .send]

/-- endf6/endf_recipe_mf28.py:12-16 -/
def mf28 : Prog :=
  seqs [
    .act .stop,
    .act .send]

/-- endf6/endf_recipe_mf2_mt151.py:12-197 -/
def mf2_mt151 : Prog :=
  seqs [
    .act (.cont true { mf := some 2, mt := some 151 } [v "ZA", v "AWR", n 0, n 0, v "NIS", n 0]),
    .loop "i" (n 1) (v "NIS") (seqs [
      .sect ⟨"isotope", [.var "i"]⟩ (seqs [
        .act (.cont false { mf := some 2, mt := some 151 } [v "ZAI", v "ABN", n 0, v "LFW", v "NER", n 0]),
        .loop "j" (n 1) (v "NER") (seqs [
          .sect ⟨"range", [.var "j"]⟩ (seqs [
            .act (.cont false { mf := some 2, mt := some 151 } [v "EL", v "EH", v "LRU", v "LRF", v "NRO", v "NAPS"]),
            .ite (.and (.and (.and (.and (.cmp .eq (v "NIS") (n 1)) (.cmp .eq (v "ZAI") (v "ZA"))) (.cmp .eq (v "ABN") (n 1))) (.cmp .eq (v "LFW") (n 0))) (.cmp .eq (v "NER") (n 1))) none (seqs [
              .ite (.and (.and (.and (.cmp .eq (v "LRU") (n 0)) (.cmp .eq (v "LRF") (n 0))) (.cmp .eq (v "NRO") (n 0))) (.cmp .eq (v "NAPS") (n 0))) none (seqs [
                .ite (.cmp .eq (v "NLS") (n 0)) (some (n 1)) (seqs [
                  .act (.cont false { mf := some 2, mt := some 151 } [v "SPI", v "AP", n 0, n 0, v "NLS", n 0])])
                (.skip)])
              (.skip)])
            (.skip),
            .ite (.cmp .eq (v "LRU") (n 1)) none (seqs [
              .ite (.or (.cmp .eq (v "LRF") (n 1)) (.cmp .eq (v "LRF") (n 2))) none (seqs [
                .ite (.cmp .ne (v "NRO") (n 0)) none (seqs [
                  .act (.tab1 { mf := some 2, mt := some 151 } [f 0, f 0, n 0, n 0, v "NR", v "NP"] ⟨"Eint", []⟩ ⟨"AP", []⟩ none)])
                (.skip),
                .ite (.and (.cmp .ne (v "NRO") (n 0)) (.or (.cmp .eq (v "NAPS") (n 0)) (.cmp .eq (v "NAPS") (n 1)))) none (seqs [
                  .act (.cont false { mf := some 2, mt := some 151 } [v "SPI", f 0, n 0, n 0, v "NLS", n 0])])
                (seqs [
                  .act (.cont false { mf := some 2, mt := some 151 } [v "SPI", v "AP", n 0, n 0, v "NLS", n 0])]),
                .loop "m" (n 1) (v "NLS") (seqs [
                  .sect ⟨"spingroup", [.var "m"]⟩ (seqs [
                    .act (.list { mf := some 2, mt := some 151 } [v "AWRI", v "QX", v "L", v "LRX", (.mul (n 6) (v "NRS")), v "NRS"] (lseqs [(.loop "k" (n 1) (v "NRS") (lseqs [(.expr (x "ER" [.var "k"])), (.expr (x "AJ" [.var "k"])), (.expr (x "GT" [.var "k"])), (.expr (x "GN" [.var "k"])), (.expr (x "GG" [.var "k"])), (.expr (x "GF" [.var "k"]))]))]) none)])])])
              (.ite (.cmp .eq (v "LRF") (n 3)) none (seqs [
                .ite (.cmp .ne (v "NRO") (n 0)) none (seqs [
                  .act (.tab1 { mf := some 2, mt := some 151 } [f 0, f 0, n 0, n 0, v "NR", v "NP"] ⟨"Eint", []⟩ ⟨"AP", []⟩ none)])
                (.skip),
                .ite (.and (.cmp .ne (v "NRO") (n 0)) (.or (.cmp .eq (v "NAPS") (n 0)) (.cmp .eq (v "NAPS") (n 1)))) none (seqs [
                  .act (.cont false { mf := some 2, mt := some 151 } [v "SPI", f 0, v "LAD", n 0, v "NLS", v "NLSC"])])
                (seqs [
                  .act (.cont false { mf := some 2, mt := some 151 } [v "SPI", v "AP", v "LAD", n 0, v "NLS", v "NLSC"])]),
                .loop "m" (n 1) (v "NLS") (seqs [
                  .sect ⟨"spingroup", [.var "m"]⟩ (seqs [
                    .act (.list { mf := some 2, mt := some 151 } [v "AWRI", v "APL", v "L", n 0, (.mul (n 6) (v "NRS")), v "NRS"] (lseqs [(.loop "k" (n 1) (v "NRS") (lseqs [(.expr (x "ER" [.var "k"])), (.expr (x "AJ" [.var "k"])), (.expr (x "GN" [.var "k"])), (.expr (x "GG" [.var "k"])), (.expr (x "GFA" [.var "k"])), (.expr (x "GFB" [.var "k"]))]))]) none)])])])
              (.ite (.cmp .eq (v "LRF") (n 7)) none (seqs [
                .act (.cont false { mf := some 2, mt := some 151 } [f 0, f 0, v "IFG", v "KRM", v "NJS", v "KRL"]),
                .act (.list { mf := some 2, mt := some 151 } [f 0, f 0, v "NPP", n 0, (.mul (n 12) (v "NPP")), (.mul (n 2) (v "NPP"))] (lseqs [(.loop "k" (n 1) (v "NPP") (lseqs [(.expr (x "MA" [.var "k"])), (.expr (x "MB" [.var "k"])), (.expr (x "ZA" [.var "k"])), (.expr (x "ZB" [.var "k"])), (.expr (x "IA" [.var "k"])), (.expr (x "IB" [.var "k"])), (.expr (x "Q" [.var "k"])), (.expr (x "PNT" [.var "k"])), (.expr (x "SHF" [.var "k"])), (.expr (x "MT" [.var "k"])), (.expr (x "PA" [.var "k"])), (.expr (x "PB" [.var "k"]))]))]) none),
                .loop "k" (n 1) (v "NJS") (seqs [
                  .sect ⟨"spingroup", [.var "k"]⟩ (seqs [
                    .act (.list { mf := some 2, mt := some 151 } [v "AJ", v "PJ", v "KBK", v "KPS", (.mul (n 6) (v "NCH")), v "NCH"] (lseqs [(.loop "l" (n 1) (v "NCH") (lseqs [(.expr (x "PPI" [.var "l"])), (.expr (x "L" [.var "l"])), (.expr (x "SCH" [.var "l"])), (.expr (x "BND" [.var "l"])), (.expr (x "APE" [.var "l"])), (.expr (x "APT" [.var "l"]))]))]) none),
                    .ite (.cmp .gt (v "NRS") (n 0)) (some (n 1)) (seqs [
                      .abbr "NX" (.div (.mul (.add (.add (n 1) (v "NCH")) (.mod (.sub (n 5) (v "NCH")) (n 6))) (v "NRS")) (n 6)),
                      .abbr "num_zeros" (.mod (.sub (n 5) (v "NCH")) (n 6)),
                      .act (.list { mf := some 2, mt := some 151 } [f 0, f 0, n 0, v "NRS", (.mul (n 6) (v "NX")), v "NX"] (lseqs [(.loop "n" (n 1) (v "NRS") (lseqs [(.expr (x "ER" [.var "n"])), (.loop "m" (n 1) (v "NCH") (lseqs [(.expr (x "GAM" [.var "m", .var "n"]))])), (.loop "p" (n 1) (v "num_zeros") (lseqs [(.expr (f 0))]))]))]) none)])
                    (.ite (.and (.cmp .eq (v "NRS") (n 0)) (.cmp .eq (v "NX") (n 1))) (some (n 1)) (seqs [
                      .act (.list { mf := some 2, mt := some 151 } [f 0, f 0, n 0, v "NRS", (.mul (n 6) (v "NX")), v "NX"] (lseqs [(.loop "m" (n 1) (n 6) (lseqs [(.expr (f 0))]))]) none)])
                    (.skip)),
                    .ite (.cmp .gt (v "KBK") (n 0)) none (seqs [
                      .loop "n" (n 1) (v "KBK") (seqs [
                        .act (.cont false { mf := some 2, mt := some 151 } [f 0, f 0, v "LCH", v "LBK", n 0, n 0]),
                        .ite (.cmp .eq (v "LBK") (n 1)) none (seqs [
                          .act (.cont false { mf := some 2, mt := some 151 } [f 0, f 0, v "LCH", v "LBK", n 0, n 0]),
                          .act (.tab1 { mf := some 2, mt := some 151 } [f 0, f 0, n 0, n 0, v "NR", v "NP"] ⟨"E", []⟩ ⟨"RBR", []⟩ (some ⟨"real_part", [.var "n"]⟩)),
                          .act (.tab1 { mf := some 2, mt := some 151 } [f 0, f 0, n 0, n 0, v "NR", v "NP"] ⟨"E", []⟩ ⟨"RBI", []⟩ (some ⟨"imag_part", [.var "n"]⟩))])
                        (.ite (.cmp .eq (v "LBK") (n 2)) none (seqs [
                          .act (.list { mf := some 2, mt := some 151 } [v "ED", v "EU", n 0, n 0, n 5, n 0] (lseqs [(.expr (v "R0")), (.expr (v "R1")), (.expr (v "R2")), (.expr (v "S0")), (.expr (v "S1"))]) none)])
                        (.ite (.cmp .eq (v "LBK") (n 3)) none (seqs [
                          .act (.list { mf := some 2, mt := some 151 } [v "ED", v "EU", n 0, n 0, n 3, n 0] (lseqs [(.expr (v "R0")), (.expr (v "S0")), (.expr (v "GA"))]) none)])
                        (.skip)))])])
                    (.skip),
                    .ite (.cmp .gt (v "KPS") (n 0)) none (seqs [
                      .loop "n" (n 1) (v "NCH") (seqs [
                        .act (.list { mf := some 2, mt := some 151 } [f 0, f 0, n 0, n 0, v "LPS", n 1] (lseqs [(.expr (f 0)), (.expr (f 0)), (.expr (f 0)), (.expr (f 0)), (.expr (f 0)), (.expr (f 0))]) none),
                        .ite (.cmp .eq (v "LPS") (n 1)) none (seqs [
                          .act (.tab1 { mf := some 2, mt := some 151 } [f 0, f 0, n 0, n 0, v "NR", v "NP"] ⟨"E", []⟩ ⟨"PSR", []⟩ (some ⟨"real_part", [.var "n"]⟩)),
                          .act (.tab1 { mf := some 2, mt := some 151 } [f 0, f 0, n 0, n 0, v "NR", v "NP"] ⟨"E", []⟩ ⟨"PSI", []⟩ (some ⟨"imag_part", [.var "n"]⟩))])
                        (.skip)])])
                    (.skip)])])])
              (.skip)))])
            (.ite (.cmp .eq (v "LRU") (n 2)) none (seqs [
              .ite (.and (.cmp .eq (v "LFW") (n 0)) (.cmp .eq (v "LRF") (n 1))) none (seqs [
                .ite (.cmp .ne (v "NRO") (n 0)) none (seqs [
                  .act (.tab1 { mf := some 2, mt := some 151 } [f 0, f 0, n 0, n 0, v "NR", v "NP"] ⟨"Eint", []⟩ ⟨"AP", []⟩ none)])
                (.skip),
                .ite (.and (.cmp .ne (v "NRO") (n 0)) (.or (.cmp .eq (v "NAPS") (n 0)) (.cmp .eq (v "NAPS") (n 1)))) none (seqs [
                  .act (.cont false { mf := some 2, mt := some 151 } [v "SPI", f 0, v "LSSF", n 0, v "NLS", n 0])])
                (seqs [
                  .act (.cont false { mf := some 2, mt := some 151 } [v "SPI", v "AP", v "LSSF", n 0, v "NLS", n 0])]),
                .loop "p" (n 1) (v "NLS") (seqs [
                  .sect ⟨"l_group", [.var "p"]⟩ (seqs [
                    .act (.list { mf := some 2, mt := some 151 } [v "AWRI", f 0, v "L", n 0, (.mul (n 6) (v "NJS")), v "NJS"] (lseqs [(.loop "m" (n 1) (v "NJS") (lseqs [(.expr (x "D" [.var "m"])), (.expr (x "AJ" [.var "m"])), (.expr (x "AMUN" [.var "m"])), (.expr (x "GN0" [.var "m"])), (.expr (x "GG" [.var "m"])), (.expr (f 0))]))]) none)])])])
              (.ite (.and (.cmp .eq (v "LFW") (n 1)) (.cmp .eq (v "LRF") (n 1))) none (seqs [
                .act (.list { mf := some 2, mt := some 151 } [v "SPI", v "AP", v "LSSF", n 0, v "NE", v "NLS"] (lseqs [(.loop "p" (n 1) (v "NE") (lseqs [(.expr (x "ES" [.var "p"]))]))]) none),
                .loop "p" (n 1) (v "NLS") (seqs [
                  .sect ⟨"j_group", [.var "p"]⟩ (seqs [
                    .act (.cont false { mf := some 2, mt := some 151 } [v "AWRI", f 0, v "L", n 0, v "NJS", n 0]),
                    .loop "n" (n 1) (v "NJS") (seqs [
                      .sect ⟨"subsec", [.var "n"]⟩ (seqs [
                        .act (.list { mf := some 2, mt := some 151 } [f 0, f 0, v "L", v "MUF", (.add (v "NE") (n 6)), n 0] (lseqs [(.expr (v "D")), (.expr (v "AJ")), (.expr (v "AMUN")), (.expr (v "GN0")), (.expr (v "GG")), (.expr (f 0)), (.loop "m" (n 1) (v "NE") (lseqs [(.expr (x "GF" [.var "m"]))]))]) none)])])])])])
              (.ite (.and (.or (.cmp .eq (v "LFW") (n 0)) (.cmp .eq (v "LFW") (n 1))) (.cmp .eq (v "LRF") (n 2))) none (seqs [
                .ite (.cmp .ne (v "NRO") (n 0)) none (seqs [
                  .act (.tab1 { mf := some 2, mt := some 151 } [f 0, f 0, n 0, n 0, v "NR", v "NP"] ⟨"Eint", []⟩ ⟨"AP", []⟩ none)])
                (.skip),
                .ite (.and (.cmp .ne (v "NRO") (n 0)) (.or (.cmp .eq (v "NAPS") (n 0)) (.cmp .eq (v "NAPS") (n 1)))) none (seqs [
                  .act (.cont false { mf := some 2, mt := some 151 } [v "SPI", f 0, v "LSSF", n 0, v "NLS", n 0])])
                (seqs [
                  .act (.cont false { mf := some 2, mt := some 151 } [v "SPI", v "AP", v "LSSF", n 0, v "NLS", n 0])]),
                .loop "p" (n 1) (v "NLS") (seqs [
                  .sect ⟨"l_group", [.var "p"]⟩ (seqs [
                    .act (.cont false { mf := some 2, mt := some 151 } [v "AWRI", f 0, v "L", n 0, v "NJS", n 0]),
                    .loop "n" (n 1) (v "NJS") (seqs [
                      .sect ⟨"subsec", [.var "n"]⟩ (seqs [
                        .act (.list { mf := some 2, mt := some 151 } [v "AJ", f 0, v "INT", n 0, (.add (.mul (n 6) (v "NE")) (n 6)), v "NE"] (lseqs [(.expr (f 0)), (.expr (f 0)), (.expr (v "AMUX")), (.expr (v "AMUN")), (.expr (v "AMUG")), (.expr (v "AMUF")), (.loop "m" (n 1) (v "NE") (lseqs [(.expr (x "ES" [.var "m"])), (.expr (x "D" [.var "m"])), (.expr (x "GX" [.var "m"])), (.expr (x "GN0" [.var "m"])), (.expr (x "GG" [.var "m"])), (.expr (x "GF" [.var "m"]))]))]) none)])])])])])
              (.skip)))])
            (.skip))])])])]),
    .act .send]

/-- endf6/endf_recipe_mf3.py:12-56 -/
def mf3 : Prog :=
  seqs [
    .act (.cont true { mf := some 3 } [v "ZA", v "AWR", n 0, n 0, n 0, n 0]),
    .act (.tab1 { mf := some 3 } [v "QM", v "QI", n 0, v "LR", v "NR", v "NP"] ⟨"E", []⟩ ⟨"xs", []⟩ (some ⟨"xstable", []⟩)),
    .act .send]

/-- endf6/endf_recipe_mf31.py:12-28 -/
def mf31 : Prog :=
  seqs [
    .act (.cont false { mf := some 31 } [f 0, f 0, n 0, v "LTY", n 0, n 0]),
    .ite (.cmp .eq (v "LTY") (n 0)) none (seqs [
      .act (.list { mf := some 31 } [f 0, f 0, n 0, n 0, (.mul (n 2) (v "NCI")), v "NCI"] (lseqs [(.loop "k" (n 1) (v "NCI") (lseqs [(.expr (x "CI" [.var "k"])), (.expr (x "XMTI" [.var "k"]))]))]) none)])
    (.ite (.or (.or (.cmp .eq (v "LTY") (n 1)) (.cmp .eq (v "LTY") (n 2))) (.cmp .eq (v "LTY") (n 3))) none (seqs [
      .act (.list { mf := some 31 } [f 0, f 0, v "MATS", v "MTS", n 4, n 1] (lseqs [(.expr (v "XMFS")), (.expr (v "XLFSS")), (.expr (f 0)), (.expr (v "Weight"))]) none)])
    (seqs [
      .act .stop])),
    .act .send]

/-- endf6/endf_recipe_mf32.py:12-172 -/
def mf32 : Prog :=
  seqs [
    .act (.cont true { mf := some 32, mt := some 151 } [v "ZA", v "AWR", n 0, n 0, v "NIS", n 0]),
    .loop "i" (n 1) (v "NIS") (seqs [
      .sect ⟨"isotope", [.var "i"]⟩ (seqs [
        .act (.cont false { mf := some 32, mt := some 151 } [v "ZAI", v "ABN", n 0, v "LFW", v "NER", n 0]),
        .loop "j" (n 1) (v "NER") (seqs [
          .sect ⟨"range", [.var "j"]⟩ (seqs [
            .act (.cont false { mf := some 32, mt := some 151 } [v "EL", v "EH", v "LRU", v "LRF", v "NRO", v "NAPS"]),
            .ite (.cmp .ne (v "NRO") (n 0)) none (seqs [
              .act (.cont false { mf := some 32, mt := some 151 } [f 0, f 0, n 0, n 0, n 0, v "NI"]),
              .act .stop])
            (.skip),
            .ite (.and (.and (.cmp .eq (v "LCOMP") (n 0)) (.cmp .eq (v "LRU") (n 1))) (.or (.cmp .eq (v "LRF") (n 1)) (.cmp .eq (v "LRF") (n 2)))) (some (n 1)) (seqs [
              .act (.cont false { mf := some 32, mt := some 151 } [v "SPI", v "AP", n 0, v "LCOMP", v "NLS", v "ISR"]),
              .ite (.cmp .ne (v "ISR") (n 0)) none (seqs [
                .act (.cont false { mf := some 32, mt := some 151 } [f 0, v "DAP", n 0, n 0, n 0, n 0])])
              (.skip),
              .loop "k" (n 1) (v "NLS") (seqs [
                .sect ⟨"somesec", [.var "k"]⟩ (seqs [
                  .act (.list { mf := some 32, mt := some 151 } [v "AWRI", f 0, v "L", n 0, (.mul (n 18) (v "NRS")), v "NRS"] (lseqs [(.loop "m" (n 1) (v "NRS") (lseqs [(.expr (x "ER" [.var "m"])), (.expr (x "AJ" [.var "m"])), (.expr (x "GT" [.var "m"])), (.expr (x "GN" [.var "m"])), (.expr (x "GG" [.var "m"])), (.expr (x "GF" [.var "m"])), (.expr (x "DE2" [.var "m"])), (.expr (x "DN2" [.var "m"])), (.expr (x "DNDG" [.var "m"])), (.expr (x "DG2" [.var "m"])), (.expr (x "DNDF" [.var "m"])), (.expr (x "DGDF" [.var "m"])), (.expr (x "DF2" [.var "m"])), (.expr (x "DJDN" [.var "m"])), (.expr (x "DJDG" [.var "m"])), (.expr (x "DJDF" [.var "m"])), (.expr (x "DJ2" [.var "m"])), (.expr (f 0))]))]) none)])])])
            (.ite (.and (.and (.cmp .eq (v "LCOMP") (n 1)) (.cmp .eq (v "LRU") (n 1))) (.or (.cmp .eq (v "LRF") (n 1)) (.cmp .eq (v "LRF") (n 2)))) (some (n 1)) (seqs [
              .act (.cont false { mf := some 32, mt := some 151 } [v "SPI", v "AP", n 0, v "LCOMP", v "NLS", v "ISR"]),
              .ite (.cmp .gt (v "ISR") (n 0)) none (seqs [
                .act (.cont false { mf := some 32, mt := some 151 } [f 0, v "DAP", n 0, n 0, n 0, n 0])])
              (.skip),
              .act (.cont false { mf := some 32, mt := some 151 } [v "AWRI", f 0, n 0, n 0, v "NSRS", v "NLRS"]),
              .loop "p" (n 1) (v "NSRS") (seqs [
                .sect ⟨"nsrs_subsec", [.var "p"]⟩ (seqs [
                  .act (.list { mf := some 32, mt := some 151 } [f 0, f 0, v "MPAR", n 0, (.add (.mul (n 6) (v "NRB")) (.div (.mul (.mul (v "MPAR") (v "NRB")) (.add (.mul (v "MPAR") (v "NRB")) (n 1))) (n 2))), v "NRB"] (lseqs [(.loop "k" (n 1) (v "NRB") (lseqs [(.expr (x "ER" [.var "k"])), (.expr (x "AJ" [.var "k"])), (.expr (x "GT" [.var "k"])), (.expr (x "GN" [.var "k"])), (.expr (x "GG" [.var "k"])), (.expr (x "GF" [.var "k"]))])), (.loop "m" (n 1) (.mul (v "MPAR") (v "NRB")) (lseqs [(.loop "n" (v "m") (.mul (v "MPAR") (v "NRB")) (lseqs [(.expr (x "V" [.var "m", .var "n"]))]))]))]) none)])])])
            (.ite (.and (.and (.cmp .eq (v "LCOMP") (n 1)) (.cmp .eq (v "LRU") (n 1))) (.cmp .eq (v "LRF") (n 3))) (some (n 1)) (seqs [
              .act (.cont false { mf := some 32, mt := some 151 } [v "SPI", v "AP", n 0, v "LCOMP", v "NLS", v "ISR"]),
              .ite (.cmp .gt (v "ISR") (n 0)) none (seqs [
                .act (.list { mf := some 32, mt := some 151 } [f 0, f 0, n 0, n 0, v "MLS", n 1] (lseqs [(.loop "k" (n 1) (v "MLS") (lseqs [(.expr (x "DAP" [.var "k"]))]))]) none)])
              (.skip),
              .act (.cont false { mf := some 32, mt := some 151 } [v "AWRI", f 0, n 0, n 0, v "NSRS", v "NLRS"]),
              .loop "p" (n 1) (v "NSRS") (seqs [
                .sect ⟨"nsrs_subsec", [.var "p"]⟩ (seqs [
                  .act (.list { mf := some 32, mt := some 151 } [f 0, f 0, v "MPAR", n 0, (.add (.mul (n 6) (v "NRB")) (.div (.mul (.mul (v "MPAR") (v "NRB")) (.add (.mul (v "MPAR") (v "NRB")) (n 1))) (n 2))), v "NRB"] (lseqs [(.loop "k" (n 1) (v "NRB") (lseqs [(.expr (x "ER" [.var "k"])), (.expr (x "AJ" [.var "k"])), (.expr (x "GN" [.var "k"])), (.expr (x "GG" [.var "k"])), (.expr (x "GFA" [.var "k"])), (.expr (x "GFB" [.var "k"]))])), (.loop "m" (n 1) (.mul (v "MPAR") (v "NRB")) (lseqs [(.loop "n" (v "m") (.mul (v "MPAR") (v "NRB")) (lseqs [(.expr (x "V" [.var "m", .var "n"]))]))]))]) none)])])])
            (.ite (.and (.and (.cmp .eq (v "LCOMP") (n 1)) (.cmp .eq (v "LRU") (n 1))) (.cmp .eq (v "LRF") (n 7))) (some (n 1)) (seqs [
              .act (.cont false { mf := some 32, mt := some 151 } [f 0, f 0, n 0, v "LCOMP", n 0, v "ISR"]),
              .ite (.cmp .gt (v "ISR") (n 0)) none (seqs [
                .act (.list { mf := some 32, mt := some 151 } [f 0, f 0, n 0, n 0, v "JCH", (.add (n 1) (.div (.sub (v "NCH") (n 1)) (n 6)))] (lseqs [(.loop "m" (n 1) (.div (v "JCH") (v "NCH")) (lseqs [(.loop "n" (n 1) (v "NCH") (lseqs [(.expr (x "DAP" [.var "m", .var "n"]))]))]))]) none)])
              (.skip),
              .act (.cont false { mf := some 32, mt := some 151 } [v "AWRI", f 0, n 0, n 0, v "NSRS", n 0]),
              .loop "k" (n 1) (v "NSRS") (seqs [
                .sect ⟨"nsrs_subsec", [.var "k"]⟩ (seqs [
                  .act (.cont false { mf := some 32, mt := some 151 } [f 0, f 0, v "NJSX", n 0, n 0, n 0]),
                  .loop "m" (n 1) (v "NJSX") (seqs [
                    .sect ⟨"J_pi_group", [.var "m"]⟩ (seqs [
                      .abbr "NX" (.div (.mul (.add (.add (n 1) (v "NCH")) (.mod (.sub (n 5) (v "NCH")) (n 6))) (v "NRB")) (n 6)),
                      .abbr "num_zeros" (.mod (.sub (n 5) (v "NCH")) (n 6)),
                      .act (.list { mf := some 32, mt := some 151 } [f 0, f 0, v "NCH", v "NRB", (.mul (n 6) (v "NX")), v "NX"] (lseqs [(.loop "p" (n 1) (v "NRB") (lseqs [(.expr (x "ER" [.var "p"])), (.loop "q" (n 1) (v "NCH") (lseqs [(.expr (x "GAM" [.var "q", .var "p"]))])), (.loop "r" (n 1) (v "num_zeros") (lseqs [(.expr (f 0))]))]))]) none)])]),
                  .act (.list { mf := some 32, mt := some 151 } [f 0, f 0, n 0, n 0, v "N", v "NPARB"] (lseqs [(.loop "p" (n 1) (v "NPARB") (lseqs [(.loop "q" (v "p") (v "NPARB") (lseqs [(.expr (x "V" [.var "p", .var "q"]))]))]))]) none)])])])
            (.ite (.and (.and (.cmp .eq (v "LCOMP") (n 2)) (.cmp .eq (v "LRU") (n 1))) (.or (.cmp .eq (v "LRF") (n 1)) (.cmp .eq (v "LRF") (n 2)))) (some (n 1)) (seqs [
              .act (.cont false { mf := some 32, mt := some 151 } [v "SPI", v "AP", n 0, v "LCOMP", n 0, v "ISR"]),
              .ite (.cmp .gt (v "ISR") (n 0)) none (seqs [
                .act (.cont false { mf := some 32, mt := some 151 } [f 0, v "DAP", n 0, n 0, n 0, n 0])])
              (.skip),
              .act (.list { mf := some 32, mt := some 151 } [v "AWRI", v "QX", n 0, v "LRX", (.mul (n 12) (v "NRSA")), v "NRSA"] (lseqs [(.loop "k" (n 1) (v "NRSA") (lseqs [(.expr (x "ER" [.var "k"])), (.expr (x "AJ" [.var "k"])), (.expr (x "GT" [.var "k"])), (.expr (x "GN" [.var "k"])), (.expr (x "GG" [.var "k"])), (.expr (x "GF" [.var "k"])), (.expr (x "DER" [.var "k"])), (.expr (f 0)), (.expr (f 0)), (.expr (x "DGN" [.var "k"])), (.expr (x "DGG" [.var "k"])), (.expr (x "DGF" [.var "k"]))]))]) none),
              .act (.cont false { mf := some 32, mt := some 151 } [f 0, f 0, v "NDIGIT", v "NNN", v "NM", n 0]),
              .loop "k" (n 1) (v "NM") (seqs [
                .act (.intg { mf := some 32, mt := some 151 } [x "II" [.var "k"], x "JJ" [.var "k"], x "KIJ" [.var "k"]] (v "NDIGIT"))])])
            (.ite (.and (.and (.cmp .eq (v "LCOMP") (n 2)) (.cmp .eq (v "LRU") (n 1))) (.cmp .eq (v "LRF") (n 3))) (some (n 1)) (seqs [
              .act (.cont false { mf := some 32, mt := some 151 } [v "SPI", v "AP", v "LAD", v "LCOMP", n 0, v "ISR"]),
              .ite (.cmp .gt (v "ISR") (n 0)) none (seqs [
                .act (.list { mf := some 32, mt := some 151 } [f 0, f 0, n 0, n 0, v "MLS", n 1] (lseqs [(.loop "k" (n 1) (v "MLS") (lseqs [(.expr (x "DAP" [.var "k"]))]))]) none)])
              (.skip),
              .act (.list { mf := some 32, mt := some 151 } [v "AWRI", v "APL", n 0, n 0, (.mul (n 12) (v "NRSA")), v "NRSA"] (lseqs [(.loop "k" (n 1) (v "NRSA") (lseqs [(.expr (x "ER" [.var "k"])), (.expr (x "AJ" [.var "k"])), (.expr (x "GN" [.var "k"])), (.expr (x "GG" [.var "k"])), (.expr (x "GFA" [.var "k"])), (.expr (x "GFB" [.var "k"])), (.expr (x "DER" [.var "k"])), (.expr (f 0)), (.expr (x "DGN" [.var "k"])), (.expr (x "DGG" [.var "k"])), (.expr (x "DGFA" [.var "k"])), (.expr (x "DGFB" [.var "k"]))]))]) none),
              .act (.cont false { mf := some 32, mt := some 151 } [f 0, f 0, v "NDIGIT", v "NNN", v "NM", n 0]),
              .loop "k" (n 1) (v "NM") (seqs [
                .act (.intg { mf := some 32, mt := some 151 } [x "II" [.var "k"], x "JJ" [.var "k"], x "KIJ" [.var "k"]] (v "NDIGIT"))])])
            (.ite (.and (.and (.cmp .eq (v "LCOMP") (n 2)) (.cmp .eq (v "LRU") (n 1))) (.cmp .eq (v "LRF") (n 7))) (some (n 1)) (seqs [
              .act (.cont false { mf := some 32, mt := some 151 } [f 0, f 0, v "IFG", v "LCOMP", v "NJS", v "ISR"]),
              .ite (.cmp .gt (v "ISR") (n 0)) none (seqs [
                .act (.list { mf := some 32, mt := some 151 } [f 0, f 0, n 0, n 0, v "NJCH", (.add (n 1) (.div (.sub (v "NJCH") (n 1)) (n 6)))] (lseqs [(.loop "m" (n 1) (.div (v "NJCH") (v "NJS")) (lseqs [(.loop "n" (n 1) (.div (v "NJCH") (v "NJS")) (lseqs [(.expr (x "DAP" [.var "m", .var "n"]))]))]))]) none)])
              (.skip),
              .act (.list { mf := some 32, mt := some 151 } [f 0, f 0, v "NPP", v "NJSX", (.mul (n 12) (v "NPP")), (.mul (n 2) (v "NPP"))] (lseqs [(.loop "k" (n 1) (v "NPP") (lseqs [(.expr (x "MA" [.var "k"])), (.expr (x "MB" [.var "k"])), (.expr (x "ZA" [.var "k"])), (.expr (x "ZB" [.var "k"])), (.expr (x "IA" [.var "k"])), (.expr (x "IB" [.var "k"])), (.expr (x "Q" [.var "k"])), (.expr (x "PNT" [.var "k"])), (.expr (x "SHF" [.var "k"])), (.expr (x "MT" [.var "k"])), (.expr (x "PA" [.var "k"])), (.expr (x "PB" [.var "k"]))]))]) none),
              .loop "q" (n 1) (v "NJS") (seqs [
                .sect ⟨"somesec", [.var "q"]⟩ (seqs [
                  .act (.list { mf := some 32, mt := some 151 } [v "AJ", v "PJ", n 0, n 0, (.mul (n 6) (v "NCH")), v "NCH"] (lseqs [(.loop "k" (n 1) (v "NCH") (lseqs [(.expr (x "PPI" [.var "k"])), (.expr (x "L" [.var "k"])), (.expr (x "SCH" [.var "k"])), (.expr (x "BND" [.var "k"])), (.expr (x "APE" [.var "k"])), (.expr (x "APT" [.var "k"]))]))]) none),
                  .abbr "NX" (.div (.mul (.add (.mul (n 2) (.add (v "NCH") (n 1))) (.mul (n 2) (.mod (.sub (n 5) (v "NCH")) (n 6)))) (v "NRSA")) (n 12)),
                  .abbr "num_zeros" (.mod (.sub (n 5) (v "NCH")) (n 6)),
                  .act (.list { mf := some 32, mt := some 151 } [f 0, f 0, n 0, v "NRSA", (.mul (n 12) (v "NX")), (.incons ⟨"NX", []⟩)] (lseqs [(.loop "k" (n 1) (v "NRSA") (lseqs [(.expr (x "ER" [.var "k"])), (.loop "p" (n 1) (v "NCH") (lseqs [(.expr (x "GAM" [.var "p", .var "k"]))])), (.loop "r" (n 1) (v "num_zeros") (lseqs [(.expr (f 0))])), (.expr (x "DER" [.var "k"])), (.loop "p" (n 1) (v "NCH") (lseqs [(.expr (x "DGAM" [.var "p", .var "k"]))])), (.loop "r" (n 1) (v "num_zeros") (lseqs [(.expr (f 0))]))]))]) none)])]),
              .act (.cont false { mf := some 32, mt := some 151 } [f 0, f 0, v "NDIGIT", v "NNN", v "NM", n 0]),
              .loop "q" (n 1) (v "NM") (seqs [
                .act (.intg { mf := some 32, mt := some 151 } [x "II" [.var "q"], x "JJ" [.var "q"], x "KIJ" [.var "q"]] (v "NDIGIT"))])])
            (.ite (.cmp .eq (v "LRU") (n 2)) none (seqs [
              .act (.cont false { mf := some 32, mt := some 151 } [v "SPI", v "AP", n 0, n 0, v "NLS", n 0]),
              .loop "q" (n 1) (v "NLS") (seqs [
                .sect ⟨"l_group", [.var "q"]⟩ (seqs [
                  .act (.list { mf := some 32, mt := some 151 } [v "AWRI", f 0, v "L", n 0, (.mul (n 6) (v "NJS")), v "NJS"] (lseqs [(.loop "k" (n 1) (v "NJS") (lseqs [(.expr (x "D" [.var "k"])), (.expr (x "AJ" [.var "k"])), (.expr (x "GNO" [.var "k"])), (.expr (x "GG" [.var "k"])), (.expr (x "GF" [.var "k"])), (.expr (x "GX" [.var "k"]))]))]) none)])]),
              .act (.list { mf := some 32, mt := some 151 } [f 0, f 0, v "MPAR", n 0, (.div (.mul (v "NPAR") (.add (v "NPAR") (n 1))) (n 2)), v "NPAR"] (lseqs [(.loop "p" (n 1) (v "NPAR") (lseqs [(.loop "q" (v "p") (v "NPAR") (lseqs [(.expr (x "RV" [.var "p", .var "q"]))]))]))]) none)])
            (.skip))))))))])])])]),
    .act .send]

/-- endf6/endf_recipe_mf33.py:12-75 -/
def mf33 : Prog :=
  seqs [
    .act (.cont true { mf := some 33 } [v "ZA", v "AWR", n 0, v "MTL", n 0, v "NL"]),
    .ite (.cmp .eq (v "MTL") (n 0)) none (seqs [
      .loop "n" (n 1) (v "NL") (seqs [
        .sect ⟨"subsection", [.var "n"]⟩ (seqs [
          .act (.cont false { mf := some 33 } [v "XMF1", v "XLFS1", v "MAT1", v "MT1", v "NC", v "NI"]),
          .loop "m" (n 1) (v "NC") (seqs [
            .sect ⟨"nc_subsection", [.var "m"]⟩ (seqs [
              .act (.cont false { mf := some 33 } [f 0, f 0, n 0, v "LTY", n 0, n 0]),
              .ite (.cmp .eq (v "LTY") (n 0)) none (seqs [
                .act (.list { mf := some 33 } [v "E1", v "E2", n 0, n 0, (.mul (n 2) (v "NCI")), v "NCI"] (lseqs [(.loop "i" (n 1) (v "NCI") (lseqs [(.expr (x "C" [.var "i"])), (.expr (x "XMT" [.var "i"]))]))]) none)])
              (.ite (.and (.cmp .ge (v "LTY") (n 1)) (.cmp .le (v "LTY") (n 3))) none (seqs [
                .act (.list { mf := some 33 } [v "E1", v "E2", v "MATS", v "MTS", (.add (.mul (n 2) (v "NEI")) (n 2)), v "NEI"] (lseqs [(.expr (v "XMFS")), (.expr (v "XLFSS")), (.loop "i" (n 1) (v "NEI") (lseqs [(.expr (x "E" [.var "i"])), (.expr (x "WE" [.var "i"]))]))]) none)])
              (.skip))])]),
          .loop "m" (n 1) (v "NI") (seqs [
            .sect ⟨"ni_subsection", [.var "m"]⟩ (seqs [
              .ite (.and (.cmp .ge (v "LB") (n 0)) (.cmp .le (v "LB") (n 4))) (some (n 1)) (seqs [
                .act (.list { mf := some 33 } [f 0, f 0, v "LT", v "LB", (.mul (n 2) (v "NP")), v "NP"] (lseqs [(.loop "k" (n 1) (.sub (v "NP") (v "LT")) (lseqs [(.expr (x "Ek" [.var "k"])), (.expr (x "Fk" [.var "k"]))])), (.loop "k" (n 1) (v "LT") (lseqs [(.expr (x "El" [.var "k"])), (.expr (x "Fl" [.var "k"]))]))]) none)])
              (.ite (.and (.cmp .eq (v "LB") (n 5)) (.cmp .eq (v "LS") (n 0))) (some (n 1)) (seqs [
                .abbr "NT" (.add (.mul (v "NE") (.sub (v "NE") (n 1))) (n 1)),
                .act (.list { mf := some 33 } [f 0, f 0, v "LS", v "LB", v "NT", v "NE"] (lseqs [(.loop "k" (n 1) (v "NE") (lseqs [(.expr (x "E" [.var "k"]))])), (.loop "k" (n 1) (.sub (v "NE") (n 1)) (lseqs [(.loop "kp" (n 1) (.sub (v "NE") (n 1)) (lseqs [(.expr (x "F" [.var "k", .var "kp"]))]))]))]) none)])
              (.ite (.and (.cmp .eq (v "LB") (n 5)) (.cmp .eq (v "LS") (n 1))) (some (n 1)) (seqs [
                .abbr "NT" (.div (.mul (v "NE") (.add (v "NE") (n 1))) (n 2)),
                .act (.list { mf := some 33 } [f 0, f 0, v "LS", v "LB", v "NT", v "NE"] (lseqs [(.loop "k" (n 1) (v "NE") (lseqs [(.expr (x "E" [.var "k"]))])), (.loop "k" (n 1) (.sub (v "NE") (n 1)) (lseqs [(.loop "kp" (v "k") (.sub (v "NE") (n 1)) (lseqs [(.expr (x "F" [.var "k", .var "kp"]))]))]))]) none)])
              (.ite (.cmp .eq (v "LB") (n 6)) (some (n 1)) (seqs [
                .abbr "NT" (.add (n 1) (.mul (v "NER") (v "NEC"))),
                .act (.list { mf := some 33 } [f 0, f 0, n 0, v "LB", v "NT", v "NER"] (lseqs [(.loop "k" (n 1) (v "NER") (lseqs [(.expr (x "ER" [.var "k"]))])), (.loop "k" (n 1) (v "NEC") (lseqs [(.expr (x "EC" [.var "k"]))])), (.loop "k" (n 1) (.sub (v "NER") (n 1)) (lseqs [(.loop "l" (n 1) (.sub (v "NEC") (n 1)) (lseqs [(.expr (x "F" [.var "k", .var "l"]))]))]))]) none)])
              (.ite (.and (.or (.cmp .eq (v "LB") (n 8)) (.cmp .eq (v "LB") (n 9))) (.cmp .eq (v "LT") (n 0))) (some (n 1)) (seqs [
                .act (.list { mf := some 33 } [f 0, f 0, v "LT", v "LB", (.mul (n 2) (v "NP")), v "NP"] (lseqs [(.loop "k" (n 1) (v "NP") (lseqs [(.expr (x "E" [.var "k"])), (.expr (x "F" [.var "k"]))]))]) none)])
              (.skip)))))])])])])])
    (.skip),
    .act .send]

/-- endf6/endf_recipe_mf34.py:12-46 -/
def mf34 : Prog :=
  seqs [
    .act (.cont true { mf := some 34 } [v "ZA", v "AWR", n 0, v "LTT", n 0, v "NMT1"]),
    .loop "k" (n 1) (v "NMT1") (seqs [
      .sect ⟨"subsection", [.var "k"]⟩ (seqs [
        .ite (.or (.cmp .eq (v "MT1") (n 0)) (.cmp .eq (v "MT") (v "MT1"))) (some (n 1)) (seqs [
          .act (.cont false { mf := some 34 } [f 0, f 0, v "MAT1", v "MT1", v "NL", v "NL"]),
          .loop "n" (n 1) (.div (.mul (v "NL") (.add (v "NL") (n 1))) (n 2)) (seqs [
            .ite (.cmp .eq (v "n") (n 1)) none (seqs [
              .act (.cont false { mf := some 34 } [f 0, f 0, x "L" [.var "n"], x "L1" [.var "n"], v "LCT", x "NI" [.var "n"]])])
            (seqs [
              .act (.cont false { mf := some 34 } [f 0, f 0, x "L" [.var "n"], x "L1" [.var "n"], n 0, x "NI" [.var "n"]])]),
            .loop "m" (n 1) (x "NI" [.var "n"]) (seqs [
              .act (.list { mf := some 34 } [f 0, f 0, x "LS" [.var "n", .var "m"], x "LB" [.var "n", .var "m"], x "NT" [.var "n", .var "m"], x "NE" [.var "n", .var "m"]] (lseqs [(.loop "q" (n 1) (x "NT" [.var "n", .var "m"]) (lseqs [(.expr (x "Data" [.var "n", .var "m", .var "q"]))]))]) none)])])])
        (seqs [
          .act (.cont false { mf := some 34 } [f 0, f 0, v "MAT1", v "MT1", v "NL", v "NL1"]),
          .loop "n" (n 1) (.mul (v "NL") (v "NL1")) (seqs [
            .ite (.cmp .eq (v "n") (n 1)) none (seqs [
              .act (.cont false { mf := some 34 } [f 0, f 0, x "L" [.var "n"], x "L1" [.var "n"], v "LCT", x "NI" [.var "n"]])])
            (seqs [
              .act (.cont false { mf := some 34 } [f 0, f 0, x "L" [.var "n"], x "L1" [.var "n"], n 0, x "NI" [.var "n"]])]),
            .loop "m" (n 1) (x "NI" [.var "n"]) (seqs [
              .act (.list { mf := some 34 } [f 0, f 0, x "LS" [.var "n", .var "m"], x "LB" [.var "n", .var "m"], x "NT" [.var "n", .var "m"], x "NE" [.var "n", .var "m"]] (lseqs [(.loop "q" (n 1) (x "NT" [.var "n", .var "m"]) (lseqs [(.expr (x "Data" [.var "n", .var "m", .var "q"]))]))]) none)])])])])]),
    .act .send]

/-- endf6/endf_recipe_mf35.py:12-23 -/
def mf35 : Prog :=
  seqs [
    .act (.cont true { mf := some 35 } [v "ZA", v "AWR", n 0, n 0, v "NK", n 0]),
    .loop "k" (n 1) (v "NK") (seqs [
      .sect ⟨"subsection", [.var "k"]⟩ (seqs [
        .ite (.and (.cmp .eq (v "LS") (n 1)) (.cmp .eq (v "LB") (n 7))) (some (n 1)) (seqs [
          .act (.list { mf := some 35 } [v "E1", v "E2", v "LS", v "LB", v "NT", v "NE"] (lseqs [(.loop "i" (n 1) (v "NE") (lseqs [(.expr (x "E" [.var "i"]))])), (.loop "i" (n 1) (.sub (v "NE") (n 1)) (lseqs [(.loop "j" (v "i") (.sub (v "NE") (n 1)) (lseqs [(.expr (x "F" [.var "i", .var "j"]))]))]))]) none)])
        (.skip)])]),
    .act .send]

/-- endf6/endf_recipe_mf4.py:12-53 -/
def mf4 : Prog :=
  seqs [
    .act (.cont true { mf := some 4 } [v "ZA", v "AWR", n 0, v "LTT", n 0, n 0]),
    .ite (.and (.cmp .eq (v "LTT") (n 3)) (.cmp .eq (v "LI") (n 0))) (some (n 1)) (seqs [
      .act (.cont false { mf := some 4 } [f 0, v "AWR", v "LI", v "LCT", n 0, v "NM"])])
    (seqs [
      .act (.cont false { mf := some 4 } [f 0, v "AWR", v "LI", v "LCT", n 0, n 0])]),
    .ite (.and (.cmp .eq (v "LTT") (n 1)) (.cmp .eq (v "LI") (n 0))) none (seqs [
      .act (.tab2 { mf := some 4 } [f 0, f 0, n 0, n 0, v "NR", v "NE"] none),
      .loop "i" (n 1) (v "NE") (seqs [
        .act (.list { mf := some 4 } [v "T", x "E" [.var "i"], v "LT", n 0, x "NL" [.var "i"], n 0] (lseqs [(.loop "l" (n 1) (x "NL" [.var "i"]) (lseqs [(.expr (x "a" [.var "i", .var "l"]))]))]) none)])])
    (.ite (.and (.cmp .eq (v "LTT") (n 2)) (.cmp .eq (v "LI") (n 0))) none (seqs [
      .act (.tab2 { mf := some 4 } [f 0, f 0, n 0, n 0, v "NR", v "NE"] (some ⟨"energy_table", []⟩)),
      .loop "i" (n 1) (v "NE") (seqs [
        .act (.tab1 { mf := some 4 } [v "T", x "E" [.var "i"], v "LT", n 0, v "NR", v "NP"] ⟨"mu", []⟩ ⟨"f", []⟩ (some ⟨"angtable", [.var "i"]⟩))])])
    (.ite (.and (.cmp .eq (v "LTT") (n 3)) (.cmp .eq (v "LI") (n 0))) none (seqs [
      .act (.tab2 { mf := some 4 } [f 0, f 0, n 0, n 0, v "NR", v "NE1"] (some ⟨"leg_int", []⟩)),
      .loop "i" (n 1) (v "NE1") (seqs [
        .act (.list { mf := some 4 } [v "T", x "E" [.var "i"], v "LT", n 0, x "NL" [.var "i"], n 0] (lseqs [(.loop "j" (n 1) (x "NL" [.var "i"]) (lseqs [(.expr (x "al" [.var "i", .var "j"]))]))]) none)]),
      .act (.tab2 { mf := some 4 } [f 0, f 0, n 0, n 0, v "NR", v "NE2"] (some ⟨"ang_int", []⟩)),
      .loop "i" (v "NE1") (.sub (.add (v "NE1") (v "NE2")) (n 1)) (seqs [
        .act (.tab1 { mf := some 4 } [v "T", x "E" [.var "i"], v "LT", n 0, v "NR", v "NP"] ⟨"mu", []⟩ ⟨"f", []⟩ (some ⟨"angtable", [.var "i"]⟩))])])
    (.skip))),
    .act .send]

/-- endf6/endf_recipe_mf40.py:12-72 -/
def mf40 : Prog :=
  seqs [
    .act (.cont true { mf := some 40 } [v "ZA", v "AWR", v "LIS", n 0, v "NS", n 0]),
    .loop "k" (n 1) (v "NS") (seqs [
      .sect ⟨"subsection", [.var "k"]⟩ (seqs [
        .act (.cont false { mf := some 40 } [v "QM", v "QI", v "IZAP", v "LFS", n 0, v "NL"]),
        .loop "i" (n 1) (v "NL") (seqs [
          .sect ⟨"subsubsec", [.var "i"]⟩ (seqs [
            .act (.cont false { mf := some 40 } [v "XMF1", v "XLFS1", v "MAT1", v "MT1", v "NC", v "NI"]),
            .loop "j" (n 1) (v "NC") (seqs [
              .sect ⟨"nc_subsubsubsec", [.var "j"]⟩ (seqs [
                .ite (.cmp .eq (v "LTY") (n 0)) (some (n 1)) (seqs [
                  .act (.cont false { mf := some 40 } [f 0, f 0, n 0, v "LTY", n 0, n 0]),
                  .act (.list { mf := some 40 } [v "E1", v "E2", n 0, n 0, (.mul (n 2) (v "NCI")), v "NCI"] (lseqs [(.loop "i" (n 1) (v "NCI") (lseqs [(.expr (x "C" [.var "i"])), (.expr (x "XMT" [.var "i"]))]))]) none)])
                (.ite (.or (.or (.cmp .eq (v "LTY") (n 1)) (.cmp .eq (v "LTY") (n 2))) (.cmp .eq (v "LTY") (n 3))) (some (n 1)) (seqs [
                  .act (.cont false { mf := some 40 } [f 0, f 0, n 0, v "LTY", n 0, n 0]),
                  .act (.list { mf := some 40 } [v "E1", v "E2", v "MATS", v "MTS", (.add (.mul (n 2) (v "NEI")) (n 2)), v "NEI"] (lseqs [(.expr (v "XMFS")), (.expr (v "XLFSS")), (.loop "i" (n 1) (v "NEI") (lseqs [(.expr (x "E" [.var "i"])), (.expr (x "WE" [.var "i"]))]))]) none)])
                (.skip))])]),
            .loop "j" (n 1) (v "NI") (seqs [
              .sect ⟨"ni_subsubsubsec", [.var "j"]⟩ (seqs [
                .ite (.and (.cmp .ge (v "LB") (n 0)) (.cmp .le (v "LB") (n 4))) (some (n 1)) (seqs [
                  .act (.list { mf := some 40 } [f 0, f 0, v "LT", v "LB", (.mul (n 2) (v "NP")), v "NP"] (lseqs [(.loop "q" (n 1) (.sub (v "NP") (v "LT")) (lseqs [(.expr (x "Ek" [.var "q"])), (.expr (x "Fk" [.var "q"]))])), (.loop "q" (n 1) (v "LT") (lseqs [(.expr (x "El" [.var "q"])), (.expr (x "Fl" [.var "q"]))]))]) none)])
                (.ite (.and (.cmp .eq (v "LB") (n 5)) (.cmp .eq (v "LS") (n 0))) (some (n 1)) (seqs [
                  .act (.list { mf := some 40 } [f 0, f 0, v "LS", v "LB", v "NT", v "NE"] (lseqs [(.loop "q" (n 1) (v "NE") (lseqs [(.expr (x "E" [.var "q"]))])), (.loop "q" (n 1) (.sub (v "NE") (n 1)) (lseqs [(.loop "qp" (n 1) (.sub (v "NE") (n 1)) (lseqs [(.expr (x "F" [.var "q", .var "qp"]))]))]))]) none)])
                (.ite (.and (.cmp .eq (v "LB") (n 5)) (.cmp .eq (v "LS") (n 1))) (some (n 1)) (seqs [
                  .act (.list { mf := some 40 } [f 0, f 0, v "LS", v "LB", v "NT", v "NE"] (lseqs [(.loop "q" (n 1) (v "NE") (lseqs [(.expr (x "E" [.var "q"]))])), (.loop "q" (n 1) (.sub (v "NE") (n 1)) (lseqs [(.loop "qp" (v "q") (.sub (v "NE") (n 1)) (lseqs [(.expr (x "F" [.var "q", .var "qp"]))]))]))]) none)])
                (.ite (.cmp .eq (v "LB") (n 6)) (some (n 1)) (seqs [
                  .act (.list { mf := some 40 } [f 0, f 0, n 0, v "LB", v "NT", v "NER"] (lseqs [(.loop "q" (n 1) (v "NER") (lseqs [(.expr (x "ER" [.var "q"]))])), (.loop "q" (n 1) (.div (.sub (v "NT") (n 1)) (v "NER")) (lseqs [(.expr (x "EC" [.var "q"]))])), (.loop "q" (n 1) (.sub (v "NER") (n 1)) (lseqs [(.loop "l" (n 1) (.sub (.div (.sub (v "NT") (n 1)) (v "NER")) (n 1)) (lseqs [(.expr (x "F" [.var "q", .var "l"]))]))]))]) none)])
                (.ite (.and (.or (.cmp .eq (v "LB") (n 8)) (.cmp .eq (v "LB") (n 9))) (.cmp .eq (v "LT") (n 0))) (some (n 1)) (seqs [
                  .act (.list { mf := some 40 } [f 0, f 0, v "LT", v "LB", (.mul (n 2) (v "NP")), v "NP"] (lseqs [(.loop "q" (n 1) (v "NP") (lseqs [(.expr (x "E" [.var "q"])), (.expr (x "F" [.var "q"]))]))]) none)])
                (.skip)))))])])])])])]),
    .act .send]

/-- endf6/endf_recipe_mf5.py:12-56 -/
def mf5 : Prog :=
  seqs [
    .act (.cont true { mf := some 5 } [v "ZA", v "AWR", n 0, n 0, v "NK", n 0]),
    .loop "k" (n 1) (v "NK") (seqs [
      .sect ⟨"contribution", [.var "k"]⟩ (seqs [
        .ite (.cmp .eq (v "LF") (n 1)) (some (n 1)) (seqs [
          .act (.tab1 { mf := some 5 } [f 0, f 0, n 0, v "LF", v "NR", v "NP"] ⟨"E", []⟩ ⟨"p", []⟩ (some ⟨"p_table", []⟩)),
          .act (.tab2 { mf := some 5 } [f 0, f 0, n 0, n 0, v "NR", v "NE"] (some ⟨"E_interp", []⟩)),
          .loop "l" (n 1) (v "NE") (seqs [
            .act (.tab1 { mf := some 5 } [f 0, x "E" [.var "l"], n 0, n 0, v "NR", v "NF"] ⟨"Eout", []⟩ ⟨"g", []⟩ (some ⟨"spectrum", [.var "l"]⟩))])])
        (.ite (.cmp .eq (v "LF") (n 5)) (some (n 1)) (seqs [
          .act (.tab1 { mf := some 5 } [v "U", f 0, n 0, v "LF", v "NR", v "NP"] ⟨"E", []⟩ ⟨"p", []⟩ (some ⟨"p_table", []⟩)),
          .act (.tab1 { mf := some 5 } [f 0, f 0, n 0, n 0, v "NR", v "NE"] ⟨"E", []⟩ ⟨"theta", []⟩ (some ⟨"theta_table", []⟩)),
          .act (.tab1 { mf := some 5 } [f 0, f 0, n 0, n 0, v "NR", v "NF"] ⟨"x", []⟩ ⟨"g", []⟩ (some ⟨"g_table", []⟩))])
        (.ite (.cmp .eq (v "LF") (n 7)) (some (n 1)) (seqs [
          .act (.tab1 { mf := some 5 } [v "U", f 0, n 0, v "LF", v "NR", v "NP"] ⟨"E", []⟩ ⟨"p", []⟩ (some ⟨"p_table", []⟩)),
          .act (.tab1 { mf := some 5 } [f 0, f 0, n 0, n 0, v "NR", v "NE"] ⟨"E", []⟩ ⟨"theta", []⟩ (some ⟨"theta_table", []⟩))])
        (.ite (.cmp .eq (v "LF") (n 9)) (some (n 1)) (seqs [
          .act (.tab1 { mf := some 5 } [v "U", f 0, n 0, v "LF", v "NR", v "NP"] ⟨"E", []⟩ ⟨"p", []⟩ (some ⟨"p_table", []⟩)),
          .act (.tab1 { mf := some 5 } [f 0, f 0, n 0, n 0, v "NR", v "NE"] ⟨"E", []⟩ ⟨"theta", []⟩ (some ⟨"theta_table", []⟩))])
        (.ite (.cmp .eq (v "LF") (n 11)) (some (n 1)) (seqs [
          .act (.tab1 { mf := some 5 } [v "U", f 0, n 0, v "LF", v "NR", v "NP"] ⟨"E", []⟩ ⟨"p", []⟩ none),
          .act .stop])
        (.ite (.cmp .eq (v "LF") (n 12)) (some (n 1)) (seqs [
          .act (.tab1 { mf := some 5 } [f 0, f 0, n 0, v "LF", v "NR", v "NP"] ⟨"E", []⟩ ⟨"p", []⟩ none),
          .act .stop])
        (.skip))))))])]),
    .act .send]

/-- endf6/endf_recipe_mf6.py:12-211 -/
def mf6 : Prog :=
  seqs [
    .act (.cont true { mf := some 6 } [v "ZA", v "AWR", v "JP", v "LCT", v "NK", n 0]),
    .loop "i" (n 1) (v "NK") (seqs [
      .sect ⟨"subsection", [.var "i"]⟩ (seqs [
        .act (.tab1 { mf := some 6 } [v "ZAP", v "AWP", v "LIP", v "LAW", v "NR", v "NP"] ⟨"Eint", []⟩ ⟨"yi", []⟩ (some ⟨"yields", []⟩)),
        .ite (.cmp .eq (v "LAW") (n 1)) none (seqs [
          .act (.tab2 { mf := some 6 } [f 0, f 0, v "LANG", v "LEP", v "NR", v "NE"] none),
          .loop "j" (n 1) (v "NE") (seqs [
            .abbr "NW" (.mul (x "NEP" [.var "j"]) (.add (x "NA" [.var "j"]) (n 2))),
            .act (.list { mf := some 6 } [f 0, x "E" [.var "j"], x "ND" [.var "j"], x "NA" [.var "j"], v "NW", x "NEP" [.var "j"]] (lseqs [(.loop "k" (n 1) (x "NEP" [.var "j"]) (lseqs [(.expr (x "Ep" [.var "j", .var "k"])), (.loop "m" (n 0) (x "NA" [.var "j"]) (lseqs [(.expr (x "b" [.var "j", .var "k", .var "m"]))]))]))]) none)])])
        (.ite (.cmp .eq (v "LAW") (n 2)) none (seqs [
          .act (.tab2 { mf := some 6 } [f 0, f 0, n 0, n 0, v "NR", v "NE"] none),
          .loop "j" (n 1) (v "NE") (seqs [
            .act (.list { mf := some 6 } [f 0, x "E" [.var "j"], v "LANG", n 0, x "NLW" [.var "j"], x "NL" [.var "j"]] (lseqs [(.loop "l" (n 1) (x "NLW" [.var "j"]) (lseqs [(.expr (x "A" [.var "j", .var "l"]))]))]) none)])])
        (.ite (.cmp .eq (v "LAW") (n 5)) none (seqs [
          .act (.tab2 { mf := some 6 } [v "SPI", f 0, v "LIDP", n 0, v "NR", v "NE"] none),
          .loop "j" (n 1) (v "NE") (seqs [
            .act (.list { mf := some 6 } [f 0, x "E" [.var "j"], x "LTP" [.var "j"], n 0, x "NW" [.var "j"], x "NL" [.var "j"]] (lseqs [(.loop "k" (n 1) (x "NW" [.var "j"]) (lseqs [(.expr (x "A" [.var "j", .var "k"]))]))]) none)])])
        (.ite (.cmp .eq (v "LAW") (n 6)) none (seqs [
          .act (.cont false { mf := some 6 } [v "APSX", f 0, n 0, n 0, n 0, v "NPSX"])])
        (.ite (.cmp .eq (v "LAW") (n 7)) none (seqs [
          .act (.tab2 { mf := some 6 } [f 0, f 0, n 0, n 0, v "NR", v "NE"] (some ⟨"E_interpol", []⟩)),
          .loop "j" (n 1) (v "NE") (seqs [
            .act (.tab2 { mf := some 6 } [f 0, x "E" [.var "j"], n 0, n 0, v "NRM", x "NMU" [.var "j"]] (some ⟨"mu_interpol", [.var "j"]⟩)),
            .loop "k" (n 1) (x "NMU" [.var "j"]) (seqs [
              .act (.tab1 { mf := some 6 } [f 0, x "mu" [.var "j", .var "k"], n 0, n 0, v "NRP", v "NEP"] ⟨"Ep", []⟩ ⟨"f", []⟩ (some ⟨"table", [.var "j", .var "k"]⟩))])])])
        (.skip)))))])]),
    .act .send]

/-- endf6/endf_recipe_mf7.py:12-34 -/
def mf7_mt2 : Prog :=
  seqs [
    .act (.cont true { mf := some 7, mt := some 2 } [v "ZA", v "AWR", v "LTHR", n 0, n 0, n 0]),
    .ite (.cmp .eq (v "LTHR") (n 1)) none (seqs [
      .act (.tab1 { mf := some 7, mt := some 2 } [v "T0", f 0, v "LT", n 0, v "NR", v "NP"] ⟨"Eint", []⟩ ⟨"S", []⟩ (some ⟨"S_T0_table", []⟩)),
      .loop "i" (n 1) (v "LT") (seqs [
        .act (.list { mf := some 7, mt := some 2 } [x "T" [.var "i"], f 0, v "LI", n 0, v "NP", n 0] (lseqs [(.loop "q" (n 1) (v "NP") (lseqs [(.expr (x "S" [.var "q", .var "i"]))]))]) none)])])
    (.ite (.cmp .eq (v "LTHR") (n 2)) none (seqs [
      .act (.tab1 { mf := some 7, mt := some 2 } [v "SB", f 0, n 0, n 0, v "NR", v "NP"] ⟨"Tint", []⟩ ⟨"Wp", []⟩ none)])
    (.ite (.cmp .eq (v "LTHR") (n 3)) none (seqs [
      .act (.tab1 { mf := some 7, mt := some 2 } [v "T0", f 0, v "LT", n 0, v "NR", v "NP"] ⟨"Eint", []⟩ ⟨"S", []⟩ (some ⟨"S_T0_table", []⟩)),
      .loop "i" (n 1) (v "LT") (seqs [
        .act (.list { mf := some 7, mt := some 2 } [x "T" [.var "i"], f 0, v "LI", n 0, v "NP", n 0] (lseqs [(.loop "q" (n 1) (v "NP") (lseqs [(.expr (x "S" [.var "q", .var "i"]))]))]) none)]),
      .act (.tab1 { mf := some 7, mt := some 2 } [v "SB", f 0, n 0, n 0, v "NR", v "NP"] ⟨"Tint", []⟩ ⟨"Wp", []⟩ none)])
    (.skip))),
    .act .send]

/-- endf6/endf_recipe_mf7.py:37-61 -/
def mf7_mt4 : Prog :=
  seqs [
    .act (.cont true { mf := some 7, mt := some 4 } [v "ZA", v "AWR", n 0, v "LAT", v "LASYM", n 0]),
    .act (.list { mf := some 7, mt := some 4 } [f 0, f 0, v "LLN", n 0, v "NI", v "NS"] (lseqs [(.loop "n" (n 1) (v "NI") (lseqs [(.expr (x "B" [.var "n"]))]))]) none),
    .act (.tab2 { mf := some 7, mt := some 4 } [f 0, f 0, n 0, n 0, v "NR", v "NB"] (some ⟨"beta_interp", []⟩)),
    .loop "i" (n 1) (v "NB") (seqs [
      .act (.tab1 { mf := some 7, mt := some 4 } [v "T0", x "beta" [.var "i"], x "LT" [.var "i"], n 0, v "NR", v "NP"] ⟨"alpha", []⟩ ⟨"S", []⟩ (some ⟨"S_table", [.var "i"]⟩)),
      .loop "j" (n 1) (x "LT" [.var "i"]) (seqs [
        .act (.list { mf := some 7, mt := some 4 } [x "T" [.var "j"], x "beta" [.var "i"], x "LI" [.var "j"], n 0, v "NP", n 0] (lseqs [(.loop "q" (n 1) (v "NP") (lseqs [(.expr (x "S" [.var "q", .var "i", .var "j"]))]))]) none)])]),
    .act (.tab1 { mf := some 7, mt := some 4 } [f 0, f 0, n 0, n 0, v "NR", v "NT"] ⟨"Tint", []⟩ ⟨"Teff0", []⟩ (some ⟨"teff0_table", []⟩)),
    .ite (.and (.cmp .ge (v "NI") (n 7)) (.cmp .eq (x "B" [.num 7]) (n 0))) none (seqs [
      .act (.tab1 { mf := some 7, mt := some 4 } [f 0, f 0, n 0, n 0, v "NR", v "NT"] ⟨"Tint", []⟩ ⟨"Teff1", []⟩ (some ⟨"teff1_table", []⟩))])
    (.skip),
    .ite (.and (.cmp .ge (v "NI") (n 13)) (.cmp .eq (x "B" [.num 13]) (f 0))) none (seqs [
      .act (.tab1 { mf := some 7, mt := some 4 } [f 0, f 0, n 0, n 0, v "NR", v "NT"] ⟨"Tint", []⟩ ⟨"Teff2", []⟩ (some ⟨"teff2_table", []⟩))])
    (.skip),
    .ite (.and (.cmp .ge (v "NI") (n 19)) (.cmp .eq (x "B" [.num 19]) (f 0))) none (seqs [
      .act (.tab1 { mf := some 7, mt := some 4 } [f 0, f 0, n 0, n 0, v "NR", v "NT"] ⟨"Tint", []⟩ ⟨"Teff3", []⟩ (some ⟨"teff3_table", []⟩))])
    (.skip),
    .act .send]

/-- endf6/endf_recipe_mf7.py:63-72 -/
def mf7_mt451 : Prog :=
  seqs [
    .act (.cont true { mf := some 7, mt := some 451 } [v "ZA", v "AWR", v "NA", n 0, n 0, n 0]),
    .loop "i" (n 1) (v "NA") (seqs [
      .act (.list { mf := some 7, mt := some 451 } [n 0, n 0, v "NAS", n 0, (.mul (n 6) (x "NI" [.var "i"])), x "NI" [.var "i"]] (lseqs [(.loop "j" (n 1) (x "NI" [.var "i"]) (lseqs [(.expr (x "ZAI" [.var "i", .var "j"])), (.expr (x "LISI" [.var "i", .var "j"])), (.expr (x "AFI" [.var "i", .var "j"])), (.expr (x "AWRI" [.var "i", .var "j"])), (.expr (x "SFI" [.var "i", .var "j"])), (.expr (n 0))]))]) none)]),
    .act .send]

/-- endf6/endf_recipe_mf8.py:12-30 -/
def mf8 : Prog :=
  seqs [
    .act (.cont true { mf := some 8 } [v "ZA", v "AWR", v "LIS", v "LISO", v "NS", v "NO"]),
    .ite (.cmp .eq (v "NO") (n 0)) none (seqs [
      .loop "k" (n 1) (v "NS") (seqs [
        .sect ⟨"subsection", [.var "k"]⟩ (seqs [
          .act (.list { mf := some 8 } [v "ZAP", v "ELFS", v "LMF", v "LFS", (.mul (n 6) (v "ND")), n 0] (lseqs [(.loop "l" (n 1) (v "ND") (lseqs [(.expr (x "HL" [.var "l"])), (.expr (x "RTYP" [.var "l"])), (.expr (x "ZAN" [.var "l"])), (.expr (x "BR" [.var "l"])), (.expr (x "END" [.var "l"])), (.expr (x "CT" [.var "l"]))]))]) none)])])])
    (.ite (.cmp .eq (v "NO") (n 1)) none (seqs [
      .loop "k" (n 1) (v "NS") (seqs [
        .sect ⟨"subsection", [.var "k"]⟩ (seqs [
          .act (.cont false { mf := some 8 } [v "ZAP", v "ELFS", v "LMF", v "LFS", n 0, n 0])])])])
    (.skip)),
    .act .send]

/-- endf6/endf_recipe_mf8_mt454.py:12-22 -/
def mf8_mt454 : Prog :=
  seqs [
    .act (.cont true { mf := some 8 } [v "ZA", v "AWR", (.add (v "LE") (n 1)), n 0, n 0, n 0]),
    .act (.list { mf := some 8 } [x "E" [.num 0], f 0, v "LE", n 0, x "NN" [.num 0], x "NFP" [.num 0]] (lseqs [(.loop "m" (n 1) (x "NFP" [.num 0]) (lseqs [(.expr (x "ZAFP" [.num 0, .var "m"])), (.expr (x "FPS" [.num 0, .var "m"])), (.expr (x "YI" [.num 0, .var "m"])), (.expr (x "DYI" [.num 0, .var "m"]))]))]) none),
    .loop "k" (n 1) (v "LE") (seqs [
      .act (.list { mf := some 8 } [x "E" [.var "k"], f 0, x "I" [.var "k"], n 0, x "NN" [.var "k"], x "NFP" [.var "k"]] (lseqs [(.loop "m" (n 1) (x "NFP" [.var "k"]) (lseqs [(.expr (x "ZAFP" [.var "k", .var "m"])), (.expr (x "FPS" [.var "k", .var "m"])), (.expr (x "YI" [.var "k", .var "m"])), (.expr (x "DYI" [.var "k", .var "m"]))]))]) none)]),
    .act .send]

/-- endf6/endf_recipe_mf8_mt457.py:12-76 -/
def mf8_mt457 : Prog :=
  seqs [
    .ite (.cmp .eq (v "NST") (n 0)) (some (n 1)) (seqs [
      .act (.cont true { mf := some 8, mt := some 457 } [v "ZA", v "AWR", v "LIS", v "LISO", v "NST", v "NSP"]),
      .act (.list { mf := some 8, mt := some 457 } [v "Thalf", v "dThalf", n 0, n 0, (.mul (n 2) (v "NC")), n 0] (lseqs [(.loop "k" (n 1) (v "NC") (lseqs [(.expr (x "Ebar_x" [.var "k"])), (.expr (x "dEbar_x" [.var "k"]))]))]) none),
      .act (.list { mf := some 8, mt := some 457 } [v "SPI", v "PAR", n 0, n 0, (.mul (n 6) (v "NDK")), v "NDK"] (lseqs [(.loop "k" (n 1) (v "NDK") (lseqs [(.expr (x "RTYP" [.var "k"])), (.expr (x "RFS" [.var "k"])), (.expr (x "Q" [.var "k"])), (.expr (x "dQ" [.var "k"])), (.expr (x "BR" [.var "k"])), (.expr (x "dBR" [.var "k"]))]))]) none),
      .loop "k" (n 1) (v "NSP") (seqs [
        .sect ⟨"spectrum", [.var "k"]⟩ (seqs [
          .act (.list { mf := some 8, mt := some 457 } [f 0, v "STYP", v "LCON", v "LCOV", n 6, v "NER"] (lseqs [(.expr (v "FD")), (.expr (v "dFD")), (.expr (v "ERAV")), (.expr (v "dERAV")), (.expr (v "FC")), (.expr (v "dFC"))]) none),
          .ite (.cmp .ne (v "LCON") (n 1)) none (seqs [
            .sect ⟨"discrete", []⟩ (seqs [
              .loop "i" (n 1) (v "NER") (seqs [
                .sect ⟨"energysec", [.var "i"]⟩ (seqs [
                  .ite (.cmp .eq (v "NT") (n 6)) (some (n 1)) (seqs [
                    .act (.list { mf := some 8, mt := some 457 } [v "ER", v "dER", n 0, n 0, v "NT", n 0] (lseqs [(.expr (v "RTYP")), (.expr (v "TYPE")), (.expr (v "RI")), (.expr (v "dRI")), (.expr (v "RIS")), (.expr (v "dRIS"))]) none)])
                  (.ite (.cmp .eq (v "NT") (n 8)) (some (n 1)) (seqs [
                    .act (.list { mf := some 8, mt := some 457 } [v "ER", v "dER", n 0, n 0, v "NT", n 0] (lseqs [(.expr (v "RTYP")), (.expr (v "TYPE")), (.expr (v "RI")), (.expr (v "dRI")), (.expr (v "RIS")), (.expr (v "dRIS")), (.expr (v "RICC")), (.expr (v "dRICC"))]) none)])
                  (.ite (.cmp .eq (v "NT") (n 12)) (some (n 1)) (seqs [
                    .act (.list { mf := some 8, mt := some 457 } [v "ER", v "dER", n 0, n 0, v "NT", n 0] (lseqs [(.expr (v "RTYP")), (.expr (v "TYPE")), (.expr (v "RI")), (.expr (v "dRI")), (.expr (v "RIS")), (.expr (v "dRIS")), (.expr (v "RICC")), (.expr (v "dRICC")), (.expr (v "RICK")), (.expr (v "dRICK")), (.expr (v "RICL")), (.expr (v "dRICL"))]) none)])
                  (.skip)))])])])])
          (.skip),
          .ite (.cmp .ne (v "LCON") (n 0)) none (seqs [
            .sect ⟨"continuous", []⟩ (seqs [
              .act (.tab1 { mf := some 8, mt := some 457 } [v "RTYP", f 0, n 0, n 0, v "NR", v "NP"] ⟨"Eint", []⟩ ⟨"RP", []⟩ none)])])
          (.skip),
          .ite (.and (.and (.cmp .ne (v "LCOV") (n 0)) (.cmp .ne (v "LCOV") (n 2))) (.cmp .ne (v "LCON") (n 0))) none (seqs [
            .sect ⟨"continuous", []⟩ (seqs [
              .act (.list { mf := some 8, mt := some 457 } [f 0, f 0, n 0, n 2, (.mul (n 2) (v "NPP")), v "NPP"] (lseqs [(.loop "m" (n 1) (v "NPP") (lseqs [(.expr (x "E" [.var "m"])), (.expr (x "F" [.var "m"]))]))]) none)])])
          (.skip),
          .ite (.and (.cmp .ne (v "LCOV") (n 0)) (.cmp .ne (v "LCOV") (n 1))) none (seqs [
            .sect ⟨"discrete", []⟩ (seqs [
              .sect ⟨"cov", []⟩ (seqs [
                .act (.list { mf := some 8, mt := some 457 } [f 0, f 0, v "LS", n 5, v "NE", v "NERP"] (lseqs [(.loop "m" (n 1) (v "NERP") (lseqs [(.expr (x "E" [.var "m"]))])), (.loop "m" (n 1) (.sub (v "NERP") (n 2)) (lseqs [(.loop "n" (v "m") (.sub (v "NERP") (n 2)) (lseqs [(.expr (x "F" [.var "m", .var "n"]))]))]))]) none)])])])
          (.skip)])])])
    (.ite (.cmp .eq (v "NST") (n 1)) (some (n 1)) (seqs [
      .act (.cont true { mf := some 8, mt := some 457 } [v "ZA", v "AWR", v "LIS", v "LISO", v "NST", n 0]),
      .act (.list { mf := some 8, mt := some 457 } [f 0, f 0, n 0, n 0, n 6, n 0] (lseqs [(.expr (f 0)), (.expr (f 0)), (.expr (f 0)), (.expr (f 0)), (.expr (f 0)), (.expr (f 0))]) none),
      .act (.list { mf := some 8, mt := some 457 } [v "SPI", v "PAR", n 0, n 0, n 6, n 0] (lseqs [(.expr (f 0)), (.expr (f 0)), (.expr (f 0)), (.expr (f 0)), (.expr (f 0)), (.expr (f 0))]) none)])
    (.skip)),
    .act .send]

/-- endf6/endf_recipe_mf8_mt459.py:12-22 -/
def mf8_mt459 : Prog :=
  seqs [
    .act (.cont true { mf := some 8 } [v "ZA", v "AWR", (.add (v "LE") (n 1)), n 0, n 0, n 0]),
    .act (.list { mf := some 8 } [x "E" [.num 0], f 0, v "LE", n 0, x "NN" [.num 0], x "NFP" [.num 0]] (lseqs [(.loop "m" (n 1) (x "NFP" [.num 0]) (lseqs [(.expr (x "ZAFP" [.num 0, .var "m"])), (.expr (x "FPS" [.num 0, .var "m"])), (.expr (x "YC" [.num 0, .var "m"])), (.expr (x "DYC" [.num 0, .var "m"]))]))]) none),
    .loop "k" (n 1) (v "LE") (seqs [
      .act (.list { mf := some 8 } [x "E" [.var "k"], f 0, x "I" [.var "k"], n 0, x "NN" [.var "k"], x "NFP" [.var "k"]] (lseqs [(.loop "m" (n 1) (x "NFP" [.var "k"]) (lseqs [(.expr (x "ZAFP" [.var "k", .var "m"])), (.expr (x "FPS" [.var "k", .var "m"])), (.expr (x "YC" [.var "k", .var "m"])), (.expr (x "DYC" [.var "k", .var "m"]))]))]) none)]),
    .act .send]

/-- endf6/endf_recipe_mf9.py:12-20 -/
def mf9 : Prog :=
  seqs [
    .act (.cont true { mf := some 9 } [v "ZA", v "AWR", v "LIS", n 0, v "NS", n 0]),
    .loop "k" (n 1) (v "NS") (seqs [
      .sect ⟨"subsection", [.var "k"]⟩ (seqs [
        .act (.tab1 { mf := some 9 } [v "QM", v "QI", v "IZAP", v "LFS", v "NR", v "NP"] ⟨"E", []⟩ ⟨"Y", []⟩ none)])]),
    .act .send]

/-- endf6/endf_recipe_mf31_mt452_455_456.py:19-21 -/
def mf31_mt452_455_456 : Prog :=
  seqs [
    .act (.cont true { mf := some 31 } [v "ZA", v "AWR", n 0, v "MTL", n 0, v "NL"]),
    .ite (.cmp .eq (v "MTL") (n 0)) none (seqs [
      .loop "n" (n 1) (v "NL") (seqs [
        .sect ⟨"subsection", [.var "n"]⟩ (seqs [
          .act (.cont false { mf := some 31 } [v "XMF1", v "XLFS1", v "MAT1", v "MT1", v "NC", v "NI"]),
          .loop "m" (n 1) (v "NC") (seqs [
            .sect ⟨"nc_subsection", [.var "m"]⟩ (seqs [
              .act (.cont false { mf := some 31 } [f 0, f 0, n 0, v "LTY", n 0, n 0]),
              .ite (.cmp .eq (v "LTY") (n 0)) none (seqs [
                .act (.list { mf := some 31 } [v "E1", v "E2", n 0, n 0, (.mul (n 2) (v "NCI")), v "NCI"] (lseqs [(.loop "i" (n 1) (v "NCI") (lseqs [(.expr (x "C" [.var "i"])), (.expr (x "XMT" [.var "i"]))]))]) none)])
              (.ite (.and (.cmp .ge (v "LTY") (n 1)) (.cmp .le (v "LTY") (n 3))) none (seqs [
                .act (.list { mf := some 31 } [v "E1", v "E2", v "MATS", v "MTS", (.add (.mul (n 2) (v "NEI")) (n 2)), v "NEI"] (lseqs [(.expr (v "XMFS")), (.expr (v "XLFSS")), (.loop "i" (n 1) (v "NEI") (lseqs [(.expr (x "E" [.var "i"])), (.expr (x "WE" [.var "i"]))]))]) none)])
              (.skip))])]),
          .loop "m" (n 1) (v "NI") (seqs [
            .sect ⟨"ni_subsection", [.var "m"]⟩ (seqs [
              .ite (.and (.cmp .ge (v "LB") (n 0)) (.cmp .le (v "LB") (n 4))) (some (n 1)) (seqs [
                .act (.list { mf := some 31 } [f 0, f 0, v "LT", v "LB", (.mul (n 2) (v "NP")), v "NP"] (lseqs [(.loop "k" (n 1) (.sub (v "NP") (v "LT")) (lseqs [(.expr (x "Ek" [.var "k"])), (.expr (x "Fk" [.var "k"]))])), (.loop "k" (n 1) (v "LT") (lseqs [(.expr (x "El" [.var "k"])), (.expr (x "Fl" [.var "k"]))]))]) none)])
              (.ite (.and (.cmp .eq (v "LB") (n 5)) (.cmp .eq (v "LS") (n 0))) (some (n 1)) (seqs [
                .abbr "NT" (.add (.mul (v "NE") (.sub (v "NE") (n 1))) (n 1)),
                .act (.list { mf := some 31 } [f 0, f 0, v "LS", v "LB", v "NT", v "NE"] (lseqs [(.loop "k" (n 1) (v "NE") (lseqs [(.expr (x "E" [.var "k"]))])), (.loop "k" (n 1) (.sub (v "NE") (n 1)) (lseqs [(.loop "kp" (n 1) (.sub (v "NE") (n 1)) (lseqs [(.expr (x "F" [.var "k", .var "kp"]))]))]))]) none)])
              (.ite (.and (.cmp .eq (v "LB") (n 5)) (.cmp .eq (v "LS") (n 1))) (some (n 1)) (seqs [
                .abbr "NT" (.div (.mul (v "NE") (.add (v "NE") (n 1))) (n 2)),
                .act (.list { mf := some 31 } [f 0, f 0, v "LS", v "LB", v "NT", v "NE"] (lseqs [(.loop "k" (n 1) (v "NE") (lseqs [(.expr (x "E" [.var "k"]))])), (.loop "k" (n 1) (.sub (v "NE") (n 1)) (lseqs [(.loop "kp" (v "k") (.sub (v "NE") (n 1)) (lseqs [(.expr (x "F" [.var "k", .var "kp"]))]))]))]) none)])
              (.ite (.cmp .eq (v "LB") (n 6)) (some (n 1)) (seqs [
                .abbr "NT" (.add (n 1) (.mul (v "NER") (v "NEC"))),
                .act (.list { mf := some 31 } [f 0, f 0, n 0, v "LB", v "NT", v "NER"] (lseqs [(.loop "k" (n 1) (v "NER") (lseqs [(.expr (x "ER" [.var "k"]))])), (.loop "k" (n 1) (v "NEC") (lseqs [(.expr (x "EC" [.var "k"]))])), (.loop "k" (n 1) (.sub (v "NER") (n 1)) (lseqs [(.loop "l" (n 1) (.sub (v "NEC") (n 1)) (lseqs [(.expr (x "F" [.var "k", .var "l"]))]))]))]) none)])
              (.ite (.and (.or (.cmp .eq (v "LB") (n 8)) (.cmp .eq (v "LB") (n 9))) (.cmp .eq (v "LT") (n 0))) (some (n 1)) (seqs [
                .act (.list { mf := some 31 } [f 0, f 0, v "LT", v "LB", (.mul (n 2) (v "NP")), v "NP"] (lseqs [(.loop "k" (n 1) (v "NP") (lseqs [(.expr (x "E" [.var "k"])), (.expr (x "F" [.var "k"]))]))]) none)])
              (.skip)))))])])])])])
    (.skip),
    .act .send]

/-- endf6_ext/endf_recipe_mf4.py:12-64 -/
def ext_mf4 : Prog :=
  seqs [
    .ite (.cmp .gt (v "LVT") (n 0)) (some (n 1)) (seqs [
      .act (.cont true { mf := some 4 } [v "ZA", v "AWR", v "LVT", v "LTT", n 0, n 0])])
    (seqs [
      .act (.cont true { mf := some 4 } [v "ZA", v "AWR", n 0, v "LTT", n 0, n 0])]),
    .ite (.cmp .gt (v "LVT") (n 0)) none (seqs [
      .act (.list { mf := some 4 } [f 0, v "AWR", v "LI", v "LCT", v "NK", v "NM"] (lseqs [(.loop "k" (n 1) (v "NK") (lseqs [(.expr (x "V" [.var "k"]))]))]) none)])
    (.ite (.and (.cmp .eq (v "LTT") (n 3)) (.cmp .eq (v "LI") (n 0))) (some (n 1)) (seqs [
      .act (.cont false { mf := some 4 } [f 0, (.incons ⟨"AWR", []⟩), v "LI", v "LCT", n 0, v "NM"])])
    (seqs [
      .act (.cont false { mf := some 4 } [f 0, (.incons ⟨"AWR", []⟩), v "LI", (.incons ⟨"LCT", []⟩), n 0, n 0])])),
    .ite (.and (.cmp .eq (v "LTT") (n 1)) (.cmp .eq (v "LI") (n 0))) none (seqs [
      .act (.tab2 { mf := some 4 } [f 0, f 0, n 0, n 0, v "NR", v "NE"] none),
      .loop "i" (n 1) (v "NE") (seqs [
        .act (.list { mf := some 4 } [v "T", x "E" [.var "i"], v "LT", n 0, x "NL" [.var "i"], n 0] (lseqs [(.loop "l" (n 1) (x "NL" [.var "i"]) (lseqs [(.expr (x "a" [.var "i", .var "l"]))]))]) none)])])
    (.ite (.and (.cmp .eq (v "LTT") (n 2)) (.cmp .eq (v "LI") (n 0))) none (seqs [
      .act (.tab2 { mf := some 4 } [f 0, f 0, n 0, n 0, v "NR", v "NE"] (some ⟨"energy_table", []⟩)),
      .loop "i" (n 1) (v "NE") (seqs [
        .act (.tab1 { mf := some 4 } [v "T", x "E" [.var "i"], v "LT", n 0, v "NR", v "NP"] ⟨"mu", []⟩ ⟨"f", []⟩ (some ⟨"angtable", [.var "i"]⟩))])])
    (.ite (.and (.cmp .eq (v "LTT") (n 3)) (.cmp .eq (v "LI") (n 0))) none (seqs [
      .act (.tab2 { mf := some 4 } [f 0, f 0, n 0, n 0, v "NR", v "NE1"] (some ⟨"leg_int", []⟩)),
      .loop "i" (n 1) (v "NE1") (seqs [
        .act (.list { mf := some 4 } [v "T", x "E" [.var "i"], v "LT", n 0, x "NL" [.var "i"], n 0] (lseqs [(.loop "j" (n 1) (x "NL" [.var "i"]) (lseqs [(.expr (x "al" [.var "i", .var "j"]))]))]) none)]),
      .act (.tab2 { mf := some 4 } [f 0, f 0, n 0, n 0, v "NR", v "NE2"] (some ⟨"ang_int", []⟩)),
      .loop "i" (v "NE1") (.sub (.add (v "NE1") (v "NE2")) (n 1)) (seqs [
        .act (.tab1 { mf := some 4 } [v "T", x "E" [.var "i"], v "LT", n 0, v "NR", v "NP"] ⟨"mu", []⟩ ⟨"f", []⟩ (some ⟨"angtable", [.var "i"]⟩))])])
    (.skip))),
    .act .send]

/-- jendl/endf_recipe_mf8_mt457.py:12-91 -/
def jendl_mf8_mt457 : Prog :=
  seqs [
    .ite (.cmp .eq (v "NST") (n 0)) (some (n 1)) (seqs [
      .act (.cont true { mf := some 8, mt := some 457 } [v "ZA", v "AWR", v "LIS", v "LISO", v "NST", v "NSP"]),
      .act (.list { mf := some 8, mt := some 457 } [v "Thalf", v "dThalf", n 0, n 0, (.mul (n 2) (v "NC")), n 0] (lseqs [(.loop "k" (n 1) (v "NC") (lseqs [(.expr (x "Ebar_x" [.var "k"])), (.expr (x "dEbar_x" [.var "k"]))]))]) none),
      .act (.list { mf := some 8, mt := some 457 } [v "SPI", v "PAR", n 0, n 0, (.mul (n 6) (v "NDK")), v "NDK"] (lseqs [(.loop "k" (n 1) (v "NDK") (lseqs [(.expr (x "RTYP" [.var "k"])), (.expr (x "RFS" [.var "k"])), (.expr (x "Q" [.var "k"])), (.expr (x "dQ" [.var "k"])), (.expr (x "BR" [.var "k"])), (.expr (x "dBR" [.var "k"]))]))]) none),
      .loop "k" (n 1) (v "NSP") (seqs [
        .sect ⟨"spectrum", [.var "k"]⟩ (seqs [
          .act (.list { mf := some 8, mt := some 457 } [f 0, v "STYP", v "LCON", v "LCOV", n 6, v "NER"] (lseqs [(.expr (v "FD")), (.expr (v "dFD")), (.expr (v "ERAV")), (.expr (v "dERAV")), (.expr (v "FC")), (.expr (v "dFC"))]) none),
          .ite (.cmp .ne (v "LCON") (n 1)) none (seqs [
            .sect ⟨"discrete", []⟩ (seqs [
              .loop "i" (n 1) (v "NER") (seqs [
                .sect ⟨"energysec", [.var "i"]⟩ (seqs [
                  .ite (.cmp .eq (v "NT") (n 4)) (some (n 1)) (seqs [
                    .act (.list { mf := some 8, mt := some 457 } [v "ER", v "dER", n 0, n 0, v "NT", n 0] (lseqs [(.expr (v "RTYP")), (.expr (v "TYPE")), (.expr (v "RI")), (.expr (v "dRI"))]) none)])
                  (.ite (.cmp .eq (v "NT") (n 6)) (some (n 1)) (seqs [
                    .act (.list { mf := some 8, mt := some 457 } [v "ER", v "dER", n 0, n 0, v "NT", n 0] (lseqs [(.expr (v "RTYP")), (.expr (v "TYPE")), (.expr (v "RI")), (.expr (v "dRI")), (.expr (v "RIS")), (.expr (v "dRIS"))]) none)])
                  (.ite (.cmp .eq (v "NT") (n 8)) (some (n 1)) (seqs [
                    .act (.list { mf := some 8, mt := some 457 } [v "ER", v "dER", n 0, n 0, v "NT", n 0] (lseqs [(.expr (v "RTYP")), (.expr (v "TYPE")), (.expr (v "RI")), (.expr (v "dRI")), (.expr (v "RIS")), (.expr (v "dRIS")), (.expr (v "RICC")), (.expr (v "dRICC"))]) none)])
                  (.ite (.cmp .eq (v "NT") (n 10)) (some (n 1)) (seqs [
                    .act (.list { mf := some 8, mt := some 457 } [v "ER", v "dER", n 0, n 0, v "NT", n 0] (lseqs [(.expr (v "RTYP")), (.expr (v "TYPE")), (.expr (v "RI")), (.expr (v "dRI")), (.expr (v "RIS")), (.expr (v "dRIS")), (.expr (v "RICC")), (.expr (v "dRICC")), (.expr (v "RICK")), (.expr (v "dRICK"))]) none)])
                  (.ite (.cmp .eq (v "NT") (n 12)) (some (n 1)) (seqs [
                    .act (.list { mf := some 8, mt := some 457 } [v "ER", v "dER", n 0, n 0, v "NT", n 0] (lseqs [(.expr (v "RTYP")), (.expr (v "TYPE")), (.expr (v "RI")), (.expr (v "dRI")), (.expr (v "RIS")), (.expr (v "dRIS")), (.expr (v "RICC")), (.expr (v "dRICC")), (.expr (v "RICK")), (.expr (v "dRICK")), (.expr (v "RICL")), (.expr (v "dRICL"))]) none)])
                  (.skip)))))])])])])
          (.skip),
          .ite (.cmp .ne (v "LCON") (n 0)) none (seqs [
            .sect ⟨"continuous", []⟩ (seqs [
              .act (.tab1 { mf := some 8, mt := some 457 } [v "RTYP", f 0, n 0, n 0, v "NR", v "NP"] ⟨"Eint", []⟩ ⟨"RP", []⟩ none)])])
          (.skip),
          .ite (.and (.and (.cmp .ne (v "LCOV") (n 0)) (.cmp .ne (v "LCOV") (n 2))) (.cmp .ne (v "LCON") (n 0))) none (seqs [
            .sect ⟨"continuous", []⟩ (seqs [
              .act (.list { mf := some 8, mt := some 457 } [f 0, f 0, n 0, n 2, (.mul (n 2) (v "NPP")), v "NPP"] (lseqs [(.loop "m" (n 1) (v "NPP") (lseqs [(.expr (x "E" [.var "m"])), (.expr (x "F" [.var "m"]))]))]) none)])])
          (.skip),
          .ite (.and (.cmp .ne (v "LCOV") (n 0)) (.cmp .ne (v "LCOV") (n 1))) none (seqs [
            .sect ⟨"discrete", []⟩ (seqs [
              .sect ⟨"cov", []⟩ (seqs [
                .act (.list { mf := some 8, mt := some 457 } [f 0, f 0, v "LS", n 5, v "NE", v "NERP"] (lseqs [(.loop "m" (n 1) (v "NERP") (lseqs [(.expr (x "E" [.var "m"]))])), (.loop "m" (n 1) (.sub (v "NERP") (n 2)) (lseqs [(.loop "n" (v "m") (.sub (v "NERP") (n 2)) (lseqs [(.expr (x "F" [.var "m", .var "n"]))]))]))]) none)])])])
          (.skip)])])])
    (.ite (.cmp .eq (v "NST") (n 1)) (some (n 1)) (seqs [
      .act (.cont true { mf := some 8, mt := some 457 } [v "ZA", v "AWR", v "LIS", v "LISO", v "NST", n 0]),
      .act (.list { mf := some 8, mt := some 457 } [f 0, f 0, n 0, n 0, n 6, n 0] (lseqs [(.expr (f 0)), (.expr (f 0)), (.expr (f 0)), (.expr (f 0)), (.expr (f 0)), (.expr (f 0))]) none),
      .ite (.cmp .ne (v "JENDL_LIST_NPL") (n 6)) (some (n 1)) (seqs [
        .act (.list { mf := some 8, mt := some 457 } [v "SPI", v "PAR", n 0, n 0, v "JENDL_LIST_NPL", n 0] (lseqs [(.loop "k" (n 1) (v "JENDL_LIST_NPL") (lseqs [(.expr (f 0))]))]) none)])
      (seqs [
        .act (.list { mf := some 8, mt := some 457 } [v "SPI", v "PAR", n 0, n 0, n 6, n 0] (lseqs [(.expr (f 0)), (.expr (f 0)), (.expr (f 0)), (.expr (f 0)), (.expr (f 0)), (.expr (f 0))]) none)])])
    (.skip)),
    .act .send]

/-- pendf/endf_recipe_mf1_mt451.py:12-130 -/
def pendf_mf1_mt451 : Prog :=
  seqs [
    .act (.cont true { mf := some 1, mt := some 451 } [v "ZA", v "AWR", v "LRP", v "LFI", v "NLIB", v "NMOD"]),
    .act (.cont false { mf := some 1, mt := some 451 } [v "ELIS", v "STA", v "LIS", v "LISO", n 0, v "NFOR"]),
    .act (.cont false { mf := some 1, mt := some 451 } [v "AWI", v "EMAX", v "LREL", n 0, v "NSUB", v "NVER"]),
    .act (.cont false { mf := some 1, mt := some 451 } [v "TEMP", v "TOL", v "LDRV", n 0, v "NWD", v "NXC"]),
    .loop "i" (n 1) (v "NWD") (seqs [
      .act (.text { mf := some 1, mt := some 451 } [⟨(some ⟨"DESCRIPTION", [.var "i"]⟩), none⟩])]),
    .loop "i" (n 1) (v "NXC") (seqs [
      .act (.dir { mf := some 1, mt := some 451 } [x "MFx" [.var "i"], x "MTx" [.var "i"], x "NCx" [.var "i"], x "MOD" [.var "i"]])]),
    .act .send]

/-- pendf/endf_recipe_mf23.py:12-41 -/
def pendf_mf23 : Prog :=
  seqs [
    .act (.cont true { mf := some 23 } [v "ZA", v "AWR", n 0, v "LMTR", n 0, n 0]),
    .act (.tab1 { mf := some 23 } [v "EPE", v "EFL", n 0, n 0, v "NR", v "NP"] ⟨"E", []⟩ ⟨"xs", []⟩ none),
    .act .send]

/-- pendf/endf_recipe_mf2_mt152.py:12-76 -/
def pendf_mf2_mt152 : Prog :=
  seqs [
    .act (.cont true { mf := some 2, mt := some 152 } [v "ZA", v "AWR", v "LSSF", n 0, n 0, v "INTUNR"]),
    .abbr "NW" (.add (v "NSIGZ") (.mul (v "NUNR") (.add (n 1) (.mul (n 5) (v "NSIGZ"))))),
    .act (.list { mf := some 2, mt := some 152 } [v "TEMZ", n 0, n 5, v "NSIGZ", v "NW", v "NUNR"] (lseqs [(.loop "j" (n 1) (v "NSIGZ") (lseqs [(.expr (x "SIGZ" [.var "j"]))])), (.loop "i" (n 1) (v "NUNR") (lseqs [(.expr (x "EUNR" [.var "i"])), (.loop "j" (n 1) (v "NSIGZ") (lseqs [(.expr (x "STOT" [.var "i", .var "j"]))])), (.loop "j" (n 1) (v "NSIGZ") (lseqs [(.expr (x "SELAS" [.var "i", .var "j"]))])), (.loop "j" (n 1) (v "NSIGZ") (lseqs [(.expr (x "SFIS" [.var "i", .var "j"]))])), (.loop "j" (n 1) (v "NSIGZ") (lseqs [(.expr (x "SCAP" [.var "i", .var "j"]))])), (.loop "j" (n 1) (v "NSIGZ") (lseqs [(.expr (x "STRN" [.var "i", .var "j"]))]))]))]) none),
    .act .send]

/-- pendf/endf_recipe_mf2_mt153.py:12-85 -/
def pendf_mf2_mt153 : Prog :=
  seqs [
    .act (.cont true { mf := some 2, mt := some 153 } [v "ZA", v "AWR", v "IINEL", v "IABSO", v "INTUNR", v "NBIN"]),
    .abbr "NW" (.mul (.add (n 1) (.mul (n 6) (v "NBIN"))) (v "NUNR")),
    .act (.list { mf := some 2, mt := some 153 } [v "TEMZ", n 0, v "LSSF", n 0, v "NW", v "NUNR"] (lseqs [(.loop "i" (n 1) (v "NUNR") (lseqs [(.expr (x "EUNR" [.var "i"])), (.loop "j" (n 1) (v "NBIN") (lseqs [(.expr (x "PROB" [.var "i", .var "j"]))])), (.loop "j" (n 1) (v "NBIN") (lseqs [(.expr (x "TOTL" [.var "i", .var "j"]))])), (.loop "j" (n 1) (v "NBIN") (lseqs [(.expr (x "ELAS" [.var "i", .var "j"]))])), (.loop "j" (n 1) (v "NBIN") (lseqs [(.expr (x "FISS" [.var "i", .var "j"]))])), (.loop "j" (n 1) (v "NBIN") (lseqs [(.expr (x "CAPT" [.var "i", .var "j"]))])), (.loop "j" (n 1) (v "NBIN") (lseqs [(.expr (x "HEAT" [.var "i", .var "j"]))]))]))]) none),
    .act .send]

/-- pendf/endf_recipe_mf3.py:12-65 -/
def pendf_mf3 : Prog :=
  seqs [
    .act (.cont true { mf := some 3 } [v "ZA", v "AWR", n 0, v "LMTR", n 0, n 0]),
    .act (.tab1 { mf := some 3 } [v "QM", v "QI", n 0, v "LR", v "NR", v "NP"] ⟨"E", []⟩ ⟨"xs", []⟩ (some ⟨"xstable", []⟩)),
    .act .send]

/-- pendf/endf_recipe_mf6.py:12-243 -/
def pendf_mf6 : Prog :=
  seqs [
    .act (.cont true { mf := some 6 } [v "ZA", v "AWR", v "JP", v "LCT", v "NK", n 0]),
    .loop "i" (n 1) (v "NK") (seqs [
      .sect ⟨"subsection", [.var "i"]⟩ (seqs [
        .ite (.and (.cmp .eq (v "LAW") (n 0)) (.cmp .gt (v "NBRAGG") (n 0))) (some (n 1)) (seqs [
          .act (.tab1 { mf := some 6 } [v "ZAP", v "AWP", (.neg (v "NBRAGG")), v "LAW", v "NR", v "NP"] ⟨"Eint", []⟩ ⟨"yi", []⟩ (some ⟨"yields", []⟩))])
        (seqs [
          .act (.tab1 { mf := some 6 } [v "ZAP", v "AWP", v "LIP", v "LAW", v "NR", v "NP"] ⟨"Eint", []⟩ ⟨"yi", []⟩ (some ⟨"yields", []⟩)),
          .ite (.and (.and (.cmp .eq (v "LAW") (n 1)) (.cmp .ne (v "LIP") (.neg (n 1)))) (.cmp .ne (v "LIP") (.neg (n 2)))) none (seqs [
            .act (.tab2 { mf := some 6 } [f 0, f 0, v "LANG", v "LEP", v "NR", v "NE"] none),
            .loop "j" (n 1) (v "NE") (seqs [
              .abbr "NW" (.mul (x "NEP" [.var "j"]) (.add (x "NA" [.var "j"]) (n 2))),
              .act (.list { mf := some 6 } [f 0, x "E" [.var "j"], x "ND" [.var "j"], x "NA" [.var "j"], v "NW", x "NEP" [.var "j"]] (lseqs [(.loop "k" (n 1) (x "NEP" [.var "j"]) (lseqs [(.expr (x "Ep" [.var "j", .var "k"])), (.loop "m" (n 0) (x "NA" [.var "j"]) (lseqs [(.expr (x "b" [.var "j", .var "k", .var "m"]))]))]))]) none)])])
          (.ite (.cmp .eq (v "LAW") (n 2)) none (seqs [
            .act (.tab2 { mf := some 6 } [f 0, f 0, n 0, n 0, v "NR", v "NE"] none),
            .loop "j" (n 1) (v "NE") (seqs [
              .act (.list { mf := some 6 } [f 0, x "E" [.var "j"], v "LANG", n 0, x "NLW" [.var "j"], x "NL" [.var "j"]] (lseqs [(.loop "l" (n 1) (x "NLW" [.var "j"]) (lseqs [(.expr (x "A" [.var "j", .var "l"]))]))]) none)])])
          (.ite (.cmp .eq (v "LAW") (n 5)) none (seqs [
            .act (.tab2 { mf := some 6 } [v "SPI", f 0, v "LIDP", n 0, v "NR", v "NE"] none),
            .loop "j" (n 1) (v "NE") (seqs [
              .act (.list { mf := some 6 } [f 0, x "E" [.var "j"], x "LTP" [.var "j"], n 0, x "NW" [.var "j"], x "NL" [.var "j"]] (lseqs [(.loop "k" (n 1) (x "NW" [.var "j"]) (lseqs [(.expr (x "A" [.var "j", .var "k"]))]))]) none)])])
          (.ite (.cmp .eq (v "LAW") (n 6)) none (seqs [
            .act (.cont false { mf := some 6 } [v "APSX", f 0, n 0, n 0, n 0, v "NPSX"])])
          (.ite (.cmp .eq (v "LAW") (n 7)) none (seqs [
            .act (.tab2 { mf := some 6 } [f 0, f 0, n 0, n 0, v "NR", v "NE"] (some ⟨"E_interpol", []⟩)),
            .loop "j" (n 1) (v "NE") (seqs [
              .act (.tab2 { mf := some 6 } [f 0, x "E" [.var "j"], n 0, n 0, v "NRM", x "NMU" [.var "j"]] (some ⟨"mu_interpol", [.var "j"]⟩)),
              .loop "k" (n 1) (x "NMU" [.var "j"]) (seqs [
                .act (.tab1 { mf := some 6 } [f 0, x "mu" [.var "j", .var "k"], n 0, n 0, v "NRP", v "NEP"] ⟨"Ep", []⟩ ⟨"f", []⟩ (some ⟨"table", [.var "j", .var "k"]⟩))])])])
          (.ite (.and (.cmp .eq (v "LAW") (n 1)) (.cmp .eq (v "LIP") (.neg (n 1)))) none (seqs [
            .act (.tab2 { mf := some 6 } [v "TEMP", f 0, n 3, n 1, v "NR", v "NE"] (some ⟨"E_interpol", []⟩)),
            .loop "j" (n 1) (v "NE") (seqs [
              .act (.list { mf := some 6 } [f 0, x "E" [.var "j"], n 0, n 0, (.mul (x "NEP" [.var "j"]) (.add (v "NU") (n 2))), (.add (v "NU") (n 2))] (lseqs [(.loop "k" (n 1) (x "NEP" [.var "j"]) (lseqs [(.expr (x "Ep" [.var "j", .var "k"])), (.expr (x "PDF" [.var "j", .var "k"])), (.loop "m" (n 1) (v "NU") (lseqs [(.expr (x "u" [.var "j", .var "k", .var "m"]))]))]))]) none)])])
          (.ite (.and (.cmp .eq (v "LAW") (n 1)) (.cmp .eq (v "LIP") (.neg (n 2)))) none (seqs [
            .act (.tab2 { mf := some 6 } [v "TEMP", f 0, n 3, n 1, v "NR", v "NE"] (some ⟨"E_interpol", []⟩)),
            .loop "j" (n 1) (v "NE") (seqs [
              .act (.list { mf := some 6 } [f 0, x "E" [.var "j"], n 0, n 0, (.add (v "NU") (n 2)), (.add (v "NU") (n 2))] (lseqs [(.expr (x "E" [.var "j"])), (.expr (.num (.num (.flt (10 / 10))))), (.loop "m" (n 1) (v "NU") (lseqs [(.expr (x "u" [.var "j", .var "m"]))]))]) none)])])
          (.skip)))))))])])]),
    .act .send]

end Verif.Shipped
