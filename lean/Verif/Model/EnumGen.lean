import Verif.Model.NumFormat
/-!
The generator of enumerations,
`dev_utils/src/automatic_code_generator/cpp/enumeration_builder/enumeration_builder.py`, and the
functions of the C++ header it writes.  The arguments (`sys.argv`, already split into options by
`argparse`), the year and the name of the script are inputs; writing the file is not modelled.
-/
namespace Verif.EnumGen

/-! ### Python's `str` methods (library, assumed) -/

/-- `text.replace(pat, rep)` for a non-empty `pat`: from left to right, without looking again at
what was put in.  The number counts the characters of an occurrence still to be dropped. -/
def replaceGo (pat rep : Str) : Nat → Str → Str
  | _, [] => []
  | k + 1, _ :: cs => replaceGo pat rep k cs
  | 0, c :: cs =>
    if pat.isPrefixOf (c :: cs) then rep ++ replaceGo pat rep (pat.length - 1) cs
    else c :: replaceGo pat rep 0 cs

/-- `text.split(sep)` for one character. -/
def splitChar (sep : Char) : Str → List Str
  | [] => [[]]
  | c :: cs =>
    if c = sep then [] :: splitChar sep cs
    else match splitChar sep cs with
      | [] => [[c]]
      | p :: ps => (c :: p) :: ps

/-- `str.isspace`. -/
def isSpace (c : Char) : Bool :=
  let n := c.toNat
  (9 ≤ n && n ≤ 13) || (28 ≤ n && n ≤ 32) || n == 0x85 || n == 0xA0 || n == 0x1680 ||
    (0x2000 ≤ n && n ≤ 0x200A) || n == 0x2028 || n == 0x2029 || n == 0x202F || n == 0x205F ||
    n == 0x3000

/-- `text.strip()`. -/
def strip (s : Str) : Str := ((s.dropWhile isSpace).reverse.dropWhile isSpace).reverse

/-- `sep.join(parts)`. -/
def join (sep : Str) : List Str → Str
  | [] => []
  | [x] => x
  | x :: y :: rest => x ++ sep ++ join sep (y :: rest)

/-! ### the script -/

/-- `parse_values`, enumeration_builder.py:190-194. -/
def parseValues (values : Str) : List Str :=
  let sep := if values.contains ';' then ';' else ','
  (splitChar sep values).map fun x => (strip x).filter (· ≠ ' ')

/-- `get_file_name_from_path`, enumeration_builder.py:169-172. -/
def fileName (path : Str) : Str :=
  strip ((splitChar '\\' ((splitChar '/' path).getLast?.getD [])).getLast?.getD [])

/-- Loop of `get_command_executed`, enumeration_builder.py:178-185; the list is in reverse. -/
def flagsAndArgs : List Str → List Str → List Str
  | acc, [] => acc.reverse
  | acc, arg :: rest =>
    if arg.contains '-' then flagsAndArgs (arg :: acc) rest
    else match acc with
      | [] => flagsAndArgs [' ' :: fileName arg] rest
      | a :: acc => flagsAndArgs ((a ++ ' ' :: fileName arg) :: acc) rest

/-- `get_command_executed`, enumeration_builder.py:175-187. -/
def command (script : Str) (argv : List Str) : Str :=
  script ++ join c!"\n *   " (flagsAndArgs [[]] argv)

/-- A piece of the template: text, or a placeholder `%name%`. -/
inductive Seg
  | lit (s : Str)
  | hole (k : Str)
deriving DecidableEq

/-- The text of a piece. -/
def Seg.text : Seg → Str
  | .lit s => s
  | .hole k => '%' :: (k ++ ['%'])

/-- The text of a template. -/
def flat (t : List Seg) : Str := t.flatMap Seg.text

/-- `TEMPLATE_TEXT`, enumeration_builder.py:36-113, cut at its placeholders (`flat template` is the
Python string). -/
def template : List Seg := [
  .lit c!"// Copyright ", .hole c!"year", .lit c!" Proyectos y Sistemas de Mantenimiento SL (eProsima).\n",
  .lit c!"//\n",
  .lit c!"// Licensed under the Apache License, Version 2.0 (the \"License\");\n",
  .lit c!"// you may not use this file except in compliance with the License.\n",
  .lit c!"// You may obtain a copy of the License at\n",
  .lit c!"//\n",
  .lit c!"//     http://www.apache.org/licenses/LICENSE-2.0\n",
  .lit c!"//\n",
  .lit c!"// Unless required by applicable law or agreed to in writing, software\n",
  .lit c!"// distributed under the License is distributed on an \"AS IS\" BASIS,\n",
  .lit c!"// WITHOUT WARRANTIES OR CONDITIONS OF ANY KIND, either express or implied.\n",
  .lit c!"// See the License for the specific language governing permissions and\n",
  .lit c!"// limitations under the License.\n",
  .lit c!"\n",
  .lit c!"/**\n",
  .lit c!" * @file ", .hole c!"output_file", .lit c!"\n",
  .lit c!" *\n",
  .lit c!" * This is an autogenerated file from command:\n",
  .lit c!" *  ", .hole c!"command", .lit c!"\n",
  .lit c!" */\n",
  .lit c!"\n",
  .lit c!"#pragma once\n",
  .lit c!"\n",
  .lit c!"#include <array>\n",
  .lit c!"#include <string>\n",
  .lit c!"#include <stdexcept>\n",
  .lit c!"#include <vector>\n",
  .lit c!"\n",
  .hole c!"start_namespace", .lit c!"\n",
  .lit c!"\n",
  .lit c!"enum class ", .hole c!"enum_name", .lit c!"\n",
  .lit c!"{\n",
  .hole c!"values", .lit c!"\n",
  .lit c!"};\n",
  .lit c!"\n",
  .lit c!"const std::array<std::string, ", .hole c!"n_values", .lit c!"> NAMES_", .hole c!"enum_name", .lit c!" =\n",
  .lit c!"{\n",
  .hole c!"quotes_values", .lit c!"\n",
  .lit c!"};\n",
  .lit c!"\n",
  .lit c!"inline const std::string& to_string(\n",
  .lit c!"        const ", .hole c!"enum_name", .lit c!"& e)\n",
  .lit c!"{\n",
  .lit c!"    return NAMES_", .hole c!"enum_name", .lit c!"[static_cast<int>(e)];\n",
  .lit c!"}\n",
  .lit c!"\n",
  .lit c!"inline std::vector<std::string> string_vector_", .hole c!"enum_name", .lit c!"()\n",
  .lit c!"{\n",
  .lit c!"    return std::vector<std::string> (\n",
  .lit c!"        NAMES_", .hole c!"enum_name", .lit c!".begin(),\n",
  .lit c!"        NAMES_", .hole c!"enum_name", .lit c!".end());\n",
  .lit c!"}\n",
  .lit c!"\n",
  .lit c!"inline ", .hole c!"enum_name", .lit c!" from_string_", .hole c!"enum_name", .lit c!"(\n",
  .lit c!"        const std::string& s)\n",
  .lit c!"{\n",
  .lit c!"    for (int i = 0; i < ", .hole c!"n_values", .lit c!"; i++)\n",
  .lit c!"    {\n",
  .lit c!"        if (NAMES_", .hole c!"enum_name", .lit c!"[i] == s)\n",
  .lit c!"        {\n",
  .lit c!"            return static_cast<", .hole c!"enum_name", .lit c!">(i);\n",
  .lit c!"        }\n",
  .lit c!"    }\n",
  .lit c!"    throw std::invalid_argument(\"Incorrect name for enum ", .hole c!"enum_name", .lit c!".\");\n",
  .lit c!"}\n",
  .lit c!"\n",
  .lit c!"inline std::ostream& operator <<(\n",
  .lit c!"        std::ostream& os,\n",
  .lit c!"        const ", .hole c!"enum_name", .lit c!"& e)\n",
  .lit c!"{\n",
  .lit c!"    os << to_string(e);\n",
  .lit c!"    return os;\n",
  .lit c!"}\n",
  .lit c!"\n",
  .lit c!"constexpr const unsigned int N_VALUES_", .hole c!"enum_name", .lit c!" = ", .hole c!"n_values", .lit c!";\n",
  .lit c!"\n",
  .hole c!"end_namespace", .lit c!"\n"]

/-- `replace_in_text`, enumeration_builder.py:197-202. -/
def replaceInText (text original replacement : Str) : Str :=
  replaceGo ('%' :: (original ++ ['%'])) replacement 0 text

/-- What the script is run with. -/
structure Input where
  year : Str
  outputFile : Str
  command : Str
  namespaces : List Str
  name : Str
  values : List Str

/-- `generate_file_text`, enumeration_builder.py:210-259. -/
def generate (templateText : Str) (i : Input) : Str :=
  let text := templateText
  let text := replaceInText text c!"year" i.year
  let text := replaceInText text c!"output_file" (fileName i.outputFile)
  let text := replaceInText text c!"command" i.command
  let text := replaceInText text c!"start_namespace"
    (join c!"\n" (i.namespaces.map fun x => c!"namespace " ++ x ++ c!" {"))
  let text := replaceInText text c!"end_namespace"
    (join c!"\n" (i.namespaces.reverse.map fun x => c!"} /* namespace " ++ x ++ c!" */"))
  let text := replaceInText text c!"enum_name" i.name
  let text := replaceInText text c!"values"
    (join c!",\n" (i.values.map fun x => c!"    " ++ x))
  let text := replaceInText text c!"quotes_values"
    (join c!",\n" (i.values.map fun x => c!"    \"" ++ x ++ c!"\""))
  let text := replaceInText text c!"n_values" (NumFormat.natToDec i.values.length)
  text

/-- The text `main` writes, enumeration_builder.py:277-299, with `--enum`, `--values`,
`--namespaces` and `--output` as given (an empty `--output` is none). -/
def main (year script : Str) (argv : List Str) (enum values namespaces output : Str) : Str :=
  let out := if output = [] then enum ++ c!".hpp" else output
  generate (flat template) ⟨year, out, command script argv, parseValues namespaces, enum, parseValues values⟩

/-! ### the functions in the header -/

/-- `to_string`, enumeration_builder.py:76-80: `NAMES[i]`, unchecked. -/
def toStr (names : List Str) (i : Nat) : Res Str :=
  match names[i]? with
  | some s => .ok s
  | none => .ub

/-- `from_string`, enumeration_builder.py:89-100: the loop over `i`. -/
def fromStrGo (names : List Str) (s : Str) : Nat → Nat → Res Nat
  | 0, _ => .throw .invalidArgument
  | n + 1, i =>
    match names[i]? with
    | none => .ub
    | some x => if x = s then .ok i else fromStrGo names s n (i + 1)

/-- `from_string`, enumeration_builder.py:89-100, in a header with the given names and number of
values. -/
def fromStr (names : List Str) (n : Nat) (s : Str) : Res Nat := fromStrGo names s n 0

end Verif.EnumGen
