import Verif.Model.Main
/-!
# Files before and after executions of the program

The program reads two files (`read_image`, `main.cpp:133-138,281-309`; each of them is closed when the function returns), and the output is
opened only when the map is ready (`main.cpp:240-242`). So the files after the execution are those before it, but for the output.

Simplifications. A path is a name of a file: two different paths are different files (there are no links). What has been written can be read.
Other programs do not change files while this one is running.
-/
namespace SP
variable {F : Type} [FloatOps F]

/-- The same circumstances with other files. -/
def World.on (world : World F) (file : Text → Option Text) : World F := { world with file := file }

/-- Files after an execution that has ended so. The constructor of `std::ofstream` creates or empties the file, `main.cpp:240`. -/
def Outcome.files (out : Outcome) (file : Text → Option Text) : Text → Option Text := fun path =>
  match out.written with
  | some (output, text) => if path = output then some text else file path
  | none => file path

/-- Files after several executions, one after another. Each of them has its own command line and its own circumstances: memory, threads
and their schedules, devices. Files of the circumstances do not matter. -/
def session : List (World F × CommandLine) → (Text → Option Text) → M (Text → Option Text)
  | [], file => .ok file
  | (world, cl) :: rest, file => do
    let out ← program (world.on file) cl
    session rest (out.files file)

end SP
