"""Writes MANIFEST.json: theorems named Cnn_... in lean/Verif/Props are collected for property Cnn."""
import glob
import json
import os
import re

ROOT = os.path.dirname(os.path.dirname(os.path.abspath(__file__)))

NOTES = {
    "C09": "Exact for sized images; images with more than 2^32 pixels and data shorter than declared are treated by separate theorems.",
    "C10": "Accepts exactly the documented inputs; the size of the reparametrization array wraps around for huge images, and NaN weights are accepted (separate theorems).",
    "C17": "False as stated: for the left neighbor the loop visits wrong pairs. Proved for the other three neighbors, and for all four on graphs as constructed (zero reparametrization).",
    "C25": "False as stated: the result of csp_process_pixel is dropped. The exact meaning of the returned flag is proved.",
    "C29": "First half proved; the second half (a labeling exists) is refuted.",
    "C30": "False as stated: solve_csp does a single sweep. Bounds on the remaining nodes are proved.",
    "C35": "False as stated: for the left neighbor pairs that are not edges are visited. Proved for the other three neighbors.",
    "C39": "False as stated: there may be no labeling at the found threshold. Proved: no smaller threshold has a labeling.",
    "C40": "False for graphs with negative penalties (the sentinel -1 is used for 'none'). Exactly one node is kept always; it is the best one when penalties are not negative.",
    "C42": "False as stated: on a 3x1 image the program ends with 'Cannot find labeling' though one exists. Proved when the best nodes form a labeling.",
    "C43": "Validity of the map needs less than 2^32 pixels (32-bit counter in image_valid).",
    "C44": "False as stated: the check for a second label is unreachable.",
    "C46": "Needs memory for the image; the bound on the maximal value is necessary (separate theorem).",
    "C49": "False for a comment directly after an instruction. Proved when separators begin with whitespace.",
    "C50": "False for superfluous content after a complete image: it is the only exception.",
    "C51": "False for numbers that do not fit 64 bits (an exception is thrown). Proved otherwise; malformed files are never accepted, and files are accepted exactly when they are images that fit the memory.",
    "C53": "False for headers with 2^64 or more pixels and for bytes 128-254 after the image. Proved otherwise.",
    "C54": "False as stated; the list of options is never printed (proved for all command lines).",
    "C55": "False as stated: most errors end with status 0. Proved: with another status nothing is written.",
    "C66": "False for std::vector<bool>, in which 64 flags share a word: two threads can bring back each other's flags forever. Proved when each flag has a word of its own.",
    "C67": "False as stated: on a 4x2 image it depends on the schedule whether the graph is found solvable. Bounds valid for all schedules are proved.",
    "C68": "False as stated: on a 4x2 image the final call may fail for a graph solved in the search.",
    "C61": "Refuted for several threads (they may go on forever). Proved otherwise: for all numbers of threads, schedules, builds and behaviours of devices the program ends with status 0 or 1, or several threads go on forever, or work items miss each other at a barrier; without GPU support and with one thread it always ends. Memory for less than 2^31 intensities, at most 2^32 threads, harmless files (see C53), arithmetics without NaN.",
    "C62": "If there is room for the file (see C89). For all numbers of threads and schedules and all builds; if a labeling is found by a device then its arithmetic must be that of the host (see C78). Memory for less than 2^31 intensities, at most 2^32 threads, arithmetics without NaN. Two executions that write a file write the same one.",
    "C57": "For a launch that changes nothing with any work groups, and for each launch if all items belong to the same work group.",
    "C58": "False: changed[0] is reset by the fastest item before others have read it. Proved for work groups of one item and for launches that have nothing to remove.",
    "C59": "Consistent with the constraints as computed by the arithmetic of the device; see C78 for those of the host.",
    "C76": "False with several work groups: one schedule gives a map and another one gives none. Proved: all maps are the same; with a single work group everything is the same.",
    "C77": "False with several work groups: changed[1] is reset by items that begin later. Proved for a single work group.",
    "C78": "False when the arithmetic of the device is less precise than that of the host. Proved when conversion of numbers loses nothing.",
    "C84": "boost::program_options is not in the repository: its behaviour in the default style is modelled after its documentation; what depends on its version is a parameter.",
    "C85": "False: words that are not options are ignored, and so is everything after --. Proved: unknown options and missing values are refused.",
    "C88": "OpenCL may fail at any moment, for any graphs; exceptions of boost::compute are derived from std::exception and not from std::logic_error.",
    "C89": "False if the file cannot be opened (C63) or if the device is full: the stream is not checked after writing. Proved: the file contains a beginning of the map, and the whole of it if there is room.",
    "C87": "The message is printed to the standard output and the status is 0. The rest is proved.",
    "C86": "All but the last part is proved. The last one is false: a file that cannot be opened is taken for an empty one.",
    "C83": "False: threads race on words of std::vector<bool>, and on flags even with a word for each of them; work items race on changed in every launch, and on flags of neighbor pixels. Proved: which races are possible, and when there are none.",
    "C82": "False: for images of 5x2 pixels no technology finds a map. Proved: every found map is that of the greedy choice among nodes that cannot be excluded by looking at neighbors, and a device with one work group finds it if it exists. For arithmetics without NaN; for GPU when conversion of numbers loses nothing.",
    "C81": "False for large graphs: with more than 2^32 nodes two nodes share a flag; intensities from 2^31 become negative. Proved for at most 2^32 elements of reparametrization and intensities less than 2^31.",
    "C79": "False: on a 4x2 image GPU finds a map and CPU ends with 'Cannot find labeling'. Proved: maps are the same when both find one, and a single work group finds a map whenever CPU does.",
    "C80": "For arithmetics without NaN; for GPU when conversion of numbers loses nothing.",
    "C63": "False if the output file cannot be opened (nothing is reported) or if CUDA fails (reported to the standard output). Proved otherwise.",
    "C64": "False: fractions are cut, negative numbers wrap around, garbage after digits is ignored. Proved for decimal notations and for values that do not begin like a number.",
    "C91": "What C61 and C62 say, for double itself; partial only because C61 is (several threads may go on forever).",
    "C100": "False for large weights: with weights 4194304 and 16777227 the processor writes a map and a device finds none. Proved if products of weights and squared differences are at most 2^24.",
    "C93": "False for large weights: with weights 1048576 and 16777217 a device writes another map than the processor. Proved if products of weights and squared differences are at most 2^24, in particular for 8-bit images, up to 4096 levels and default weights.",
    "C105": "Proved for exact penalties in general and for the program while products of weights and squared differences are at most 2^53 (2^24 with float devices); false for larger weights, which are rounded.",
    "C113": "False if several labelings are feasible at the least threshold: the first row decides. Proved that the two maps are equally good and that the map is turned upside down if it is the only feasible one.",
    "C117": "False: for images 4 2 6 7 and 7 0 7 2 a third level changes the map though it is not used. Proved if each pixel has its most similar pixel among those allowed by fewer levels; in any case the least threshold with fewer levels is not greater.",
}


def main():
    props = [json.loads(line) for line in open(f"{ROOT}/properties.jsonl")]
    found = {}
    for path in sorted(glob.glob(f"{ROOT}/lean/Verif/Props/*.lean")):
        for name in re.findall(r"^(?:protected )?theorem (C\d\d\w*)", open(path).read(), re.M):
            found.setdefault(name.split("_")[0], []).append("SP." + name)
    claims = []
    for p in props:
        ths = found.get(p["id"], [])
        if not ths:
            continue
        part = any(t.endswith("_partial") or t.endswith("_refuted") for t in ths)
        claims.append({
            "property": p["id"],
            "status": "partial" if part else "proved",
            "theorems": ths,
            "note": NOTES.get(p["id"], ""),
        })
    with open(f"{ROOT}/MANIFEST.json", "w") as f:
        json.dump({"claims": claims}, f, indent=1)
        f.write("\n")
    missing = [p["id"] for p in props if p["id"] not in found]
    print(len(claims), "claims;", "missing:", " ".join(missing))


main()
